import Verif.Model.Sharing
/-! # Transactions that have nothing to do with each other -/
namespace TF.Spec

/-- What an act on a transaction makes of it, the transaction being a value of its own. A refused one may leave a trace only where
signing does (see C70). -/
def actOn (H : Bytes → Bytes) (t : Tx) : Act → Tx
  | .assign _ l => match t.setCoinInputs l with
    | .ok t' => t'
    | .error _ => t
  | .add _ ci => match t.coinInputAdd ci.parentId ci.fulfillment ci.parent with
    | .ok t' => t'
    | .error _ => t
  | .sign _ tgt k sig => (t.sign H tgt k sig).1
  | _ => t

/-- The transaction an act is on. -/
def Act.target : Act → Option Nat
  | .new _ => none
  | .assign j _ | .add j _ | .sign j _ _ _ => some j
  | .share dst _ => some dst

/-- What becomes of some transactions by a program, each act concerning only the transaction it is on. Inputs assigned from another
transaction are copies. -/
def separately (H : Bytes → Bytes) (ts : List Tx) : List Act → List Tx
  | [] => ts
  | .new t :: l => separately H (ts ++ [t]) l
  | .share dst src :: l => separately H (match ts[src]? with
      | none => ts
      | some u => ts.mapIdx fun j t => if dst = j then actOn H t (.assign dst (u.coinInputs.getD [])) else t) l
  | a :: l => separately H (ts.mapIdx fun j t => if Act.target a = some j then actOn H t a else t) l

/-- The program never assigns the inputs of one transaction to another one. -/
def NoSharing (l : List Act) : Prop := ∀ dst src, Act.share dst src ∉ l

end TF.Spec
