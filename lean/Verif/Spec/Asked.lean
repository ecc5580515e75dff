import Verif.Spec.Wire
import Verif.Spec.Encodable
import Mathlib.Data.List.Dedup
/-! # Who is asked to sign a transaction -/
namespace TF.Spec.Ask

/-- The address of a key: the hash of its wire form. -/
def keyAddress (H : Bytes → Bytes) (k : PublicKey) : UnlockHash := ⟨1, ⟨H (Wire.slice .sia (Wire.key .sia k))⟩⟩

/-- The addresses whose signatures a condition is about; anybody's is the nil address. -/
def owners : Condition → List UnlockHash
  | .nil => [⟨0, ⟨[]⟩⟩]
  | .unlockHash u => [u]
  | .atomicSwap s r _ _ => [s, r]
  | .lockTime _ c => owners c
  | .multiSig l _ => l

/-- The keys entered in a fulfillment. -/
def holders : Fulfillment → List PublicKey
  | .single k _ => [k]
  | .swap k _ _ => [k]
  | .multi ps => ps.map (·.key)

/-- The kind of fulfillment a condition is spent with. -/
def Suits : Fulfillment → Condition → Prop
  | .single .., .nil => True
  | .single .., .unlockHash _ => True
  | .multi _, .multiSig .. => True
  | .swap .., .atomicSwap .. => True
  | .single .., .lockTime _ .nil => True
  | .single .., .lockTime _ (.unlockHash _) => True
  | .multi _, .lockTime _ (.multiSig ..) => True
  | _, _ => False

/-- A fulfillment of one signature, of several whose keys are complete, or of an atomic swap neither party of which has signed. -/
def Ordinary (H : Bytes → Bytes) : Fulfillment → Condition → Prop
  | .single .., _ => True
  | .multi ps, _ => ∀ p ∈ ps, FullKey p.key
  | .swap k _ _, c => keyAddress H k ∉ owners c

/-- The owners of a condition whose keys are not entered. -/
def askedFor (H : Bytes → Bytes) (f : Fulfillment) (c : Condition) : List UnlockHash :=
  (owners c).filter fun u => decide (u ∉ (holders f).map (keyAddress H))

/-- The coin inputs, if the transaction has a list of them. -/
def coinsOf (t : Tx) : List CoinInput := t.coinInputs.getD []
/-- The coin inputs with a known parent output, numbered. -/
def knownCoins (t : Tx) : List (Nat × Fulfillment × Condition) :=
  (coinsOf t).zipIdx.flatMap fun (ci, i) => (ci.parent.map fun co => (i, ci.fulfillment, co.condition)).toList
/-- The blockstake inputs, numbered. -/
def knownStakes (t : Tx) : List (Nat × Fulfillment × Condition) :=
  t.stakeInputs.zipIdx.map fun (si, i) => (i, si.fulfillment, si.parent.condition)
/-- The minter's fulfillment and condition. -/
def minting : Tx → Option (Option Fulfillment × Condition)
  | .v128 t => t.parent.map (t.mintFulfillment, ·)
  | .v129 t => t.parent.map (t.mintFulfillment, ·)
  | _ => none
/-- The parties that sign the transaction itself: the word they sign with, the key and the signature. -/
def parties : Tx → List (String × Option PublicKey × Option Signature)
  | .v144 t => [("sender", t.key, t.sig)]
  | .v145 t => [("sender", t.parentKey, t.sig)]
  | .v146 t => [("sender", t.senderKey, t.senderSig), ("receiver", t.receiverKey, t.receiverSig)]
  | .v210 t => [("registration", t.key, t.sig)]
  | _ => []

/-- Who is asked to sign, and for what: the inputs in order, then the minters, then the parties without a signature. -/
def asked (H : Bytes → Bytes) (t : Tx) : List (SigTarget × UnlockHash) :=
  ((knownCoins t).flatMap fun (i, f, c) => (askedFor H f c).map ((.coin i, ·))) ++
  ((knownStakes t).flatMap fun (i, f, c) => (askedFor H f c).map ((.stake i, ·))) ++
  ((minting t).toList.flatMap fun (f, c) => (f.toList.flatMap fun f => askedFor H f c).map ((.mint, ·))) ++
  (parties t).flatMap fun (w, k, s) => if s = none then k.toList.map fun k => (.self (Wire.ascii w.toList), keyAddress H k) else []

/-- The fulfillment is of the kind the condition needs, its keys fit and the owners' addresses are complete. -/
structure Fitting (f : Fulfillment) (c : Condition) : Prop where
  suits : Suits f c
  keys : ∀ k ∈ holders f, KeyFits k
  owners : ∀ u ∈ owners c, FullAddress u ∨ u.type = 0

/-- A transaction each known input of which can be signed for. -/
structure Askable (t : Tx) : Prop where
  list : t.coinInputs ≠ none
  coins : ∀ x ∈ knownCoins t, Fitting x.2.1 x.2.2
  stakes : ∀ x ∈ knownStakes t, Fitting x.2.1 x.2.2
  mint : ∀ x ∈ minting t, ∃ f, x.1 = some f ∧ Fitting f x.2
  parties : ∀ x ∈ parties t, ∀ k, x.2.1 = some k → KeyFits k

/-- An owner's key is entered only with a signature, and there are as many different owners as signatures are required. -/
def Settled (H : Bytes → Bytes) : Fulfillment → Condition → Prop
  | .single k none, c => keyAddress H k ∉ owners c
  | .swap k none _, c => keyAddress H k ∉ owners c
  | .multi _, .multiSig os n => n ≤ os.dedup.length
  | .multi _, .lockTime _ (.multiSig os n) => n ≤ os.dedup.length
  | _, _ => True

/-- All parent outputs, keys of parties and mint conditions are known. -/
structure AllKnown (t : Tx) : Prop where
  coins : ∀ ci ∈ coinsOf t, ci.parent ≠ none
  parties : ∀ x ∈ parties t, x.2.1 ≠ none
  mint : match t with
    | .v128 _ => minting t ≠ none
    | .v129 _ => minting t ≠ none
    | _ => True

end TF.Spec.Ask
