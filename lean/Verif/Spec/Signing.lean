import Verif.Model.Fulfillments
/-! # Histories of signing -/
namespace TF.Spec

/-- What may happen to a signature request and the fulfillment behind it: somebody tries to fulfil the request, or somebody changes
the fulfillment in any way whatever (through another request, a setter, …). -/
inductive SignEvent
  | attempt (k : KeyArg) (sig : BVal)
  | change (f : Fulfillment)

/-- The outcomes of the attempts of a history on one request, in order (`none`: returned normally). -/
def attemptOutcomes (H : Bytes → Bytes) (r : Request) (f : Fulfillment) : List SignEvent → List (Option Err)
  | [] => []
  | .change f' :: es => attemptOutcomes H r f' es
  | .attempt k sig :: es =>
    let out := r.fulfill H f k sig
    out.2 :: attemptOutcomes H out.1.1 out.1.2 es

/-- The ways pairs get into a multi-signature fulfillment through its API. -/
inductive MultiOp
  | add (k : KeyArg) (sig : BVal)                  -- add_pair / signature_add
  | assign (l : List (KeyArg × BVal))              -- f.pairs = l
  | sign (r : Request) (k : KeyArg) (sig : BVal)   -- request.signature_fulfill

/-- The key handed over by an operation is never Python's `None`. -/
def MultiOp.NoNone : MultiOp → Prop
  | .add k _ => k ≠ .none
  | .assign l => ∀ x ∈ l, x.1 ≠ .none
  | .sign _ k _ => k ≠ .none

/-- The pairs held after one operation, whether it returned or raised. -/
def multiStep (H : Bytes → Bytes) (pairs : List KeySig) : MultiOp → List KeySig
  | .add k sig => match addPair pairs k sig with
    | .ok ps => ps
    | .error _ => pairs
  | .assign l => (addPairs [] l).1
  | .sign r k sig => match (r.fulfill H (.multi pairs) k sig).1.2 with
    | .multi ps => ps
    | _ => pairs

/-- The pairs held after a history. -/
def multiRun (H : Bytes → Bytes) (pairs : List KeySig) (ops : List MultiOp) : List KeySig := ops.foldl (multiStep H) pairs

/-- A signing session on one fulfillment: the fulfillment and all requests created so far. -/
structure Session where
  f : Fulfillment
  reqs : List Request

/-- Ask the fulfillment for signature requests, or try to fulfil the `i`-th request created so far. -/
inductive SessOp
  | request
  | fulfill (i : Nat) (k : KeyArg) (sig : BVal)

/-- One step of a session for the parent condition `c`. -/
def Session.step (H : Bytes → Bytes) (c : Condition) (s : Session) : SessOp → Session
  | .request => match s.f.requests H c with
    | .ok rs => { s with reqs := s.reqs ++ rs }
    | .error _ => s
  | .fulfill i k sig => match s.reqs[i]? with
    | none => s
    | some r =>
      let out := r.fulfill H s.f k sig
      { f := out.1.2, reqs := s.reqs.set i out.1.1 }

/-- A whole session, started with a fresh multi-signature fulfillment. -/
def sessionRun (H : Bytes → Bytes) (c : Condition) (ops : List SessOp) : Session :=
  ops.foldl (Session.step H c) ⟨.multi [], []⟩

/-- A key, signature and secret as the chain uses them: 32-byte key, 64-byte signature, 32-byte secret. -/
def FullKey (k : PublicKey) : Prop := k.hash.value.length = 32
@[inherit_doc FullKey] def FullSig (s : Signature) : Prop := s.value.length = 64 ∧ s.asArray = false

/-- A fulfillment whose keys, signatures and secret are all there. -/
def FullFulfillment : Fulfillment → Prop
  | .single k s => FullKey k ∧ ∃ x, s = some x ∧ FullSig x
  | .multi ps => ∀ p ∈ ps, FullKey p.key ∧ FullSig p.sig
  | .swap k s sec => FullKey k ∧ (∃ x, s = some x ∧ FullSig x) ∧ (∀ b, sec = some b → b.length = 32)

end TF.Spec
