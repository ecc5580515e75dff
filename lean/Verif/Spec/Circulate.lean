import Verif.Spec.Live
import Verif.Spec.Full
import Verif.Model.WalletOps
import Mathlib.Data.List.Forall2
/-! # A payment from multi-signature wallets that is handed around among the owners

One of the owners makes the payment; the JSON of what a wallet returns is given to the next wallet's `transaction_sign`, until one of them submits it. -/
namespace TF.Spec

/-- The owners of the multi-signature output an input spends, and the number of signatures it requires. -/
def ownersIn (ci : CoinInput) : List UnlockHash :=
  match ci.parent with
  | none => []
  | some co => match co.condition.unwrap with
    | .multiSig os _ => os
    | _ => []
@[inherit_doc ownersIn]
def requiredIn (ci : CoinInput) : Int :=
  match ci.parent with
  | none => 0
  | some co => match co.condition.unwrap with
    | .multiSig _ n => n
    | _ => 0

/-- A payment or a conversion to ERC20 coins with the coin inputs `l`, all from multi-signature wallets, not signed yet. The owners of such a
wallet are different people with personal addresses. -/
structure Joint (L : IpLib) (t : Tx) (l : List CoinInput) : Prop where
  kind : (∃ v, t = .v1 v ∧ v.stakeInputs = []) ∨ ∃ v, t = .v208 v
  full : FullTx L t
  fits : TxFits L t
  inputs : t.coinInputs = some l
  nonempty : l ≠ []
  multi : ∀ ci ∈ l, ci.fulfillment = .multi [] ∧ ∃ co os n, ci.parent = some co ∧ co.condition.unwrap = .multiSig os n
  owners : ∀ ci ∈ l, ownersIn ci ≠ [] ∧ (ownersIn ci).Nodup ∧ Few (ownersIn ci) ∧ ∀ u ∈ ownersIn ci, FullAddress u ∧ u.type = 1

/-- A wallet that knows the outputs spent by the payment as what they are. -/
structure TakesPart (H : Bytes → Bytes) (l : List CoinInput) (W : World) : Prop where
  hash : W.H = H
  keys : GoodKeys W
  knows : ∃ w, W.balance = .ok w ∧ ∀ ci ∈ l, ∀ co, ci.parent = some co → (∃ co' ∈ walletsSpendable w, co'.id = ci.parentId) ∧
    ∀ co' ∈ walletsSpendable w, co'.id = ci.parentId → co'.condition = co.condition

/-- No owner's key is in two of the wallets. -/
def Separate (H : Bytes → Bytes) (l : List CoinInput) (Ws : List World) : Prop :=
  Ws.Pairwise fun W W' => ∀ ci ∈ l, ∀ u ∈ ownersIn ci, W.keys.get? (u.str H) = none ∨ W'.keys.get? (u.str H) = none

/-- The owners' keys in the wallets: who can sign an input, in order. -/
def signersAt (Ws : List World) (ci : CoinInput) : List (World × PublicKey) := Ws.flatMap fun W => (heldKeys W (ownersIn ci)).map fun k => (W, k)

/-- The wallets can make as many signatures as each of the inputs requires. -/
def Enough (Ws : List World) (l : List CoinInput) : Prop := ∀ ci ∈ l, requiredIn ci ≤ ((signersAt Ws ci).length : Int)

/-- `p` is the signature of the key's owner for input `i` of the payment. -/
def SignedBy (H : Bytes → Bytes) (t : Tx) (i : Nat) (x : World × PublicKey) (p : KeySig) : Prop :=
  p.key = x.2 ∧ ∃ b, t.preimage H (.coin i) x.2 = .ok b ∧ p.sig = ⟨x.1.sign x.2 (H b), false⟩

/-- `t'` is the payment `t`, signed by all the wallets: the inputs spend the same outputs in the same order, each carries a signature of each of the
owners and no other, and what other owners have to sign is the same. -/
def SignedByAll (H : Bytes → Bytes) (t : Tx) (l : List CoinInput) (Ws : List World) (t' : Tx) : Prop :=
  (∀ i pk, t'.preimage H (.coin i) pk = t.preimage H (.coin i) pk) ∧
  ∃ l', t'.coinInputs = some l' ∧ l'.length = l.length ∧ ∀ (i : Nat) (ci ci' : CoinInput), l[i]? = some ci → l'[i]? = some ci' →
    ci'.parentId = ci.parentId ∧ ∃ ps, ci'.fulfillment = .multi ps ∧ List.Forall₂ (SignedBy H t i) (signersAt Ws ci) ps

/-- What a wallet makes of the JSON of a transaction. -/
def handed (L : IpLib) (W : World) (t : Tx) : Outcome (Tx × Bool × Bool) := Outcome.ofRes (t.json L W.H) fun j => W.jsonSign L j true

/-- The payment `t` has gone through the hands of these wallets without being submitted, and `t'` is what the last of them returned. The first wallet
may have made the payment (its balance was `w`). -/
inductive Circulated (L : IpLib) (t : Tx) : List World → Tx → Prop where
  | unsigned : Circulated L t [] t
  | made (W : World) (w : Wallets) (t' : Tx) : (W.signSubmit w t).posted = [] → (W.signSubmit w t).result = .ok (t', false) → Circulated L t [W] t'
  | next (Ws : List World) (W : World) (t' t'' : Tx) (b : Bool) : Circulated L t Ws t' → (handed L W t').posted = [] →
      (handed L W t').result = .ok (t'', b, false) → Circulated L t (Ws ++ [W]) t''

end TF.Spec
