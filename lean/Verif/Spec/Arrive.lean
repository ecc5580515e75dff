import Verif.Spec.Circulation
/-! # What a wallet owns on a chain, and what it is shown -/
namespace TF.Spec

/-- The output is at one of the addresses. -/
def AtAny (H : Bytes → Bytes) (own : List UnlockHash) (co : CoinOutput) : Prop := ∃ u ∈ own, AtAddress H (u.str H) co

/-- The unspent outputs at the addresses are worth `n` smallest units altogether. -/
def Owned (H : Bytes → Bytes) (S : ChainState) (own : List UnlockHash) (n : Nat) : Prop :=
  ∃ l : List CoinOutput, l.Nodup ∧ (∀ co, co ∈ l ↔ (UnspentOn S co ∧ Identified co) ∧ AtAny H own co) ∧ total l = n

/-- The available and locked coins a balance shows, confirmed and unconfirmed, are worth `n` smallest units altogether. -/
def ShowsCoins (b : Balance) (n : Nat) : Prop :=
  ∃ a l ua ul, b.availableCoins = .ok a ∧ b.lockedCoins = .ok l ∧ b.unconfCoins = .ok ua ∧ b.unconfLockedCoins = .ok ul ∧
    amount a + amount l + amount ua + amount ul = n

open Classical in
/-- What the outputs of a transaction at the addresses are worth. -/
noncomputable def paidTo (H : Bytes → Bytes) (own : List UnlockHash) (t : Tx) : Nat := total (t.coinOutputs.filter fun co => decide (AtAny H own co))

/-- Explorers have a history of each address the chain knows. -/
def Answering (C : Client) (own : List UnlockHash) (S : ChainState) : Prop :=
  ∀ u ∈ own, (∃ t ∈ S.txs, ConcernsAt C.H S (u.str C.H) t) → ∃ h, C.unlockhashGet (.str (u.str C.H)) = .ok h

/-- An output for the condition pays one of the addresses, possibly under a time lock. -/
def ToAny (H : Bytes → Bytes) (own : List UnlockHash) (c : Condition) : Prop := ∃ u ∈ own, ∃ v, c.unlockhash H = .ok v ∧ v.str H = u.str H

end TF.Spec
