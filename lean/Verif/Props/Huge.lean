import Verif.Props.Bots
/-! # Amounts of more than 28 digits (C56, C79: findings) -/
namespace TF.Props
open TF Spec

/-- An output of 10^30 + 7 smallest units: 31 digits. -/
def coinHuge : CoinOutput := ⟨⟨some ⟨false, 10 ^ 30 + 7, -9⟩⟩, .unlockHash (addrOf key1), ⟨List.replicate 32 5⟩⟩
/-- A wallet that has only this output. -/
def hugeWorld : World := { demoBots with balance := .ok (walletsRun toyHash [.chain 1000 1000, .report coinHuge true false]) }

/-- What a transaction spends, and what it creates and pays as fees. -/
def spendsCreates (t : Tx) : Nat × Nat :=
  (inputsTotal (t.coinInputs.getD []), total t.coinOutputs + (t.minerFees.map amount).sum)

theorem huge_good : ∀ co ∈ walletsSpendable (walletsRun toyHash [.chain 1000 1000, .report coinHuge true false]), GoodCurrency co.value := by
  rw [show walletsSpendable (walletsRun toyHash [.chain 1000 1000, .report coinHuge true false]) = [coinHuge] by decide +kernel]
  intro co h
  rw [List.mem_singleton.mp h]
  exact ⟨rfl, by decide⟩

/-- **C56 is false** of a wallet with more than 28 digits worth of coins: a submitted payment of 8 TFT spends 7 smallest units more than it creates
and pays as fee (so the network refuses it). -/
theorem C56_huge_false : ∃ (W : World) (w : Wallets) (r : Recipient) (amt : CVal), W.balance = .ok w ∧ (∀ co ∈ walletsSpendable w, GoodCurrency co.value) ∧
    GoodCurrency W.fee ∧ asked W.H r amt .none = some (8000000000, .unlockHash (addrOf key2)) ∧
    (W.coinsSend r amt .none .none .none .none).posted.map spendsCreates = [(10 ^ 30 + 7, 10 ^ 30)] :=
  ⟨hugeWorld, _, .uh (addrOf key2), .int 8, rfl, huge_good, ⟨rfl, by decide⟩, by decide +kernel, by decide +kernel⟩

/-- **C79 is false** of such a wallet: the registration of a 3Bot with one name for three months, for 120 TFT, spends 7 smallest units more than it pays. -/
theorem C79_huge_false : ∃ (W : World) (w : Wallets), W.balance = .ok w ∧ (∀ co ∈ walletsSpendable w, GoodCurrency co.value) ∧ GoodCurrency W.fee ∧
    (W.recordNew toyIp 3 (some [.str "example".toList]) none (some 0) .none .none).posted.map (fun t => ((spendsCreates t).1, 120 * 10 ^ 9 + (spendsCreates t).2)) =
      [(10 ^ 30 + 7, 10 ^ 30)] :=
  ⟨hugeWorld, _, rfl, huge_good, ⟨rfl, by decide⟩, by decide +kernel⟩

end TF.Props
