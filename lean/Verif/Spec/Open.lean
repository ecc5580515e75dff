import Verif.Spec.Payment
/-! # What a wallet has the keys for -/
namespace TF.Spec

/-- The keys an operation of the wallet may sign with: its own, and the one it makes next if it needs a new one. -/
def MayUse (W : World) (k : PublicKey) : Prop := (∃ a, W.keys.get? a = some k) ∨ ∃ ks, W.keys.new1 W.H W.derive = .ok (ks, k)

/-- The wallet has the keys for the condition: of the owner, of as many owners as signatures are required, of one of the two parties of a contract;
any key opens what is free for all. That a time lock has passed is for the network to check. -/
def CanOpen (W : World) : Condition → Prop
  | .nil => ∃ k, MayUse W k
  | .unlockHash u => ∃ k, MayUse W k ∧ SignsFor W.H k u
  | .multiSig os n => ∃ ks : List PublicKey, ks.Nodup ∧ n ≤ (ks.length : Int) ∧ ∀ k ∈ ks, MayUse W k ∧ ∃ u ∈ os, SignsFor W.H k u
  | .atomicSwap a b _ _ => ∃ k, MayUse W k ∧ (SignsFor W.H k a ∨ SignsFor W.H k b)
  | .lockTime _ c => CanOpen W c

/-- The keys whose signatures a fulfillment carries. -/
def signersIn : Fulfillment → List PublicKey
  | .single k (some _) => [k]
  | .swap k (some _) _ => [k]
  | .multi ps => ps.map (·.key)
  | _ => []

/-- Every input of the transaction is signed with keys the wallet has, and the wallet has the keys for what is spent. -/
def OpensAll (W : World) (t : Tx) : Prop :=
  ∀ l, t.coinInputs = some l → ∀ ci ∈ l, (∀ k ∈ signersIn ci.fulfillment, MayUse W k) ∧ ∀ co, ci.parent = some co → CanOpen W co.condition

/-- A minting transaction knows the condition for minting, its mint fulfillment is signed with keys of the wallet, and the wallet has the keys for it. -/
def OpensMint (W : World) (t : Tx) : Prop :=
  ∀ p, mintPart t = some p → ∃ c f, p = (some c, some f) ∧ (∀ k ∈ signersIn f, MayUse W k) ∧ CanOpen W c

/-- The same wallet with other private keys. -/
def rekeyed (W : World) (g : PublicKey → Bytes → Bytes) : World := { W with sign := g }

/-- The private keys of the wallet's own keys are the same. -/
def SameOwn (W : World) (g : PublicKey → Bytes → Bytes) : Prop := ∀ k, MayUse W k → g k = W.sign k

end TF.Spec
