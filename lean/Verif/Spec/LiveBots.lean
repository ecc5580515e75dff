import Verif.Spec.Live
import Verif.Spec.Ops
/-! # When a wallet can sign for 3Bots and registrations -/
namespace TF.Spec

/-- The wallet has the keys that sign for the 3Bots or the registered address themselves. -/
def SignsItself (W : World) (t : Tx) : Prop :=
  ∀ p ∈ selfSignatures t, ∀ k, p.2.1 = some k → ∃ a, HasAddress W.H k a ∧ W.keys.lookup a ≠ none

/-- The operation produces a transaction: it is submitted exactly if the wallet has the keys for all its inputs and for the 3Bots (the registered
address) themselves, and returned unsubmitted, to be signed by others, exactly if not. -/
def SubmitsIfAllKeys (W : World) (o : Outcome (Tx × Bool)) : Prop :=
  ∃ t l, t.coinInputs = some l ∧ ((KeysSuffice W l ∧ SignsItself W t) ∧ o.posted = [t] ∨ ¬ (KeysSuffice W l ∧ SignsItself W t) ∧ o.posted = [] ∧ o.result = .ok (t, false))

/-- The wallet has the key with the given index; without index, it can make a new address. `ks` are the keys of the wallet afterwards. -/
def KeyReady (W : World) (index : Option Int) (ks : Keys) (k : PublicKey) : Prop :=
  match index with
  | some _ => KeyAtIndex W index k ∧ ks = W.keys
  | none => W.keys.new1 W.H W.derive = .ok (ks, k)

/-- The same for what identifies an address to be registered. -/
def NamedReady (W : World) (which : WhichKey) (ks : Keys) (k : PublicKey) : Prop :=
  match which with
  | .new => KeyReady W none ks k
  | .index i => KeyReady W (some i) ks k
  | w => KeyNamed W w k ∧ ks = W.keys

/-- The addresses are given as texts or numbers, not as address objects (which cannot be copied, C76). -/
def GivenPlainly (given : Option (List NetArg)) : Prop := ∀ l, given = some l → ∀ a ∈ l, ∀ x, a ≠ .net x

/-- The wallet knows a good balance whose outputs are ordinary ones also with the keys `ks`; funds, source and refund are in order. -/
structure CanPay (W : World) (w : Wallets) (ks : Keys) (n : Nat) (src : Source) (refund : Recipient) : Prop where
  balance : W.balance = .ok w
  good : GoodBalance W w
  ordinary : ∀ co ∈ walletsSpendable w, Ordinary { W with keys := ks } co.condition
  fee : GoodCurrency W.fee
  source : ReadableSource W.H w src
  simple : SimpleSource W.H w src
  affordable : Affordable W w src (n + amount W.fee)
  refunds : GoodRefund W w src refund

/-- The operation produces a transaction: it is submitted exactly if the wallet has the keys for the mint condition `c`, and returned unsubmitted, to be
signed by others, exactly if not. -/
def SubmitsIfMinter (W : World) (c : Condition) (o : Outcome (Tx × Bool)) : Prop :=
  ∃ t, Unlockable W c ∧ o.posted = [t] ∨ ¬ Unlockable W c ∧ o.posted = [] ∧ o.result = .ok (t, false)

end TF.Spec
