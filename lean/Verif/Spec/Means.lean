import Verif.Spec.Arrive
import Verif.Spec.LiveBots
import Verif.Spec.Answers
/-! # What a wallet owns -/
namespace TF.Spec

/-- A wallet told the truth, with the keys of its addresses and a readable balance, owns outputs of the chain, at most 99, whose time locks have passed and which are worth `n`
and the miner fee. (All conditions on the chain are ordinary ones.) -/
structure Means (W : World) (C : Client) (own : List UnlockHash) (S : ChainState) (n : Nat) : Prop where
  informed : Informed W C own S
  answering : Answering C own S
  keys : GoodKeys W
  held : ∀ u ∈ own, ∃ k, W.keys.lookup (u.str W.H) = some k
  primary : ∃ u ∈ own, Names W.H W.keys.primary u
  ordinary : ∀ co, UnspentOn S co → Identified co → Ordinary W co.condition
  readable : ∃ w, W.balance = .ok w
  coins : ∃ coins : List CoinOutput, coins.Nodup ∧ coins.length ≤ 99 ∧ n + amount W.fee ≤ total coins ∧
    ∀ co ∈ coins, UnspentOn S co ∧ Identified co ∧ AtAny W.H own co ∧ LockPassed S co.condition

/-- The operation submits a transaction that the network asks for and any such chain can take, under any new ids. -/
def Succeeds {α : Type} (W : World) (S : ChainState) (o : Outcome α) : Prop :=
  ∃ t, o.posted = [t] ∧ ValidOn W S t ∧ ∀ ids : List Hash, ids.length = t.coinOutputs.length → ids.Nodup →
    (∀ id ∈ ids, id.value.length = 32 ∧ ¬ SpentOn S id ∧ ∀ co, CreatedOn S co → co.id ≠ id) → ∃ S', Accepts S t S'

/-- The multi-signature conditions explorers describe have at most 2^20 owners with well-formed addresses. -/
def PlainOwners (S : ChainState) : Prop :=
  ∀ t ∈ S.txs, ∀ o, Touches t.tx o → ∀ os n, o.condition.unwrap = .multiSig os n → Few os ∧ ∀ u ∈ os, CanonicalAddress u

end TF.Spec
