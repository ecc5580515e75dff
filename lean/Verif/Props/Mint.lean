import Verif.Spec.Ops
import Verif.Props.WalletOps
/-!
# Property C81: minting
-/
namespace TF.Props
open TF Spec

theorem dataUnlessNone_payload {d : DataArg} {b : Bytes} (h : dataUnlessNone d = .ok b) : payload d = some b ∧ b.length ≤ 83 := by
  unfold dataUnlessNone at h
  split at h
  · cases h; exact ⟨rfl, by simp⟩
  · unfold setData at h
    repeat' split at h
    all_goals first
      | (cases h; done)
      | (cases h; exact ⟨rfl, by simp⟩)
      | (rename_i hl; cases h; exact ⟨rfl, by omega⟩)

/-- **C81** (`minter.coins_new`). Whatever the operation posts or returns creates exactly the amount asked for, for the recipient asked for, and
nothing else; it carries the given data (at most 83 bytes), the nonce and the minimum miner fee, and is to be signed for the current mint
condition. -/
theorem C81_coins_new (W : World) (nonce : Bytes) (r : Recipient) (amt : CVal) (lock : LockVal) (data : DataArg) (t : Tx)
    (hamt : ∀ c, amt = .cur c → GoodCurrency c) (ht : Produces (W.coinsNew nonce r amt lock data) t) :
    ∃ (v : TxV129) (pay : Nat × Condition) (c : Condition), t = .v129 v ∧ asked W.H r amt lock = some pay ∧
      v.coinOutputs.map (fun co => (amount co.value, co.condition)) = [pay] ∧ v.minerFees.map amount = [amount W.fee] ∧
      payload data = some v.data ∧ v.data.length ≤ 83 ∧ v.nonce = nonce ∧ W.mintCondition = .ok c ∧ v.parent = some c := by
  obtain ⟨w, hw, ht⟩ := ofRes_produces ht
  obtain ⟨t0, ht0, ht⟩ := ofRes_produces ht
  have hb := signSubmit_produces ht
  unfold World.coinCreation at ht0
  simp only [bind, Except.bind] at ht0
  split at ht0
  · cases ht0
  · rename_i fee hfee
    cases hfee
    split at ht0
    · cases ht0
    · rename_i a ha
      split at ht0
      · cases ht0
      · rename_i c hc
        split at ht0
        · cases ht0
        · rename_i d hd
          split at ht0
          · cases ht0
          · rename_i p hp
            split at ht0
            · cases ht0
            · cases ht0
              obtain ⟨h1, h2, h3⟩ := positive_spec hamt ha
              obtain ⟨h4, h5⟩ := dataUnlessNone_payload hd
              cases t <;> simp only [bare, reduceCtorEq] at hb
              rename TxV129 => v
              simp only [Tx.v129.injEq, TxV129.mk.injEq] at hb
              obtain ⟨b1, -, b2, b3, b4, b5⟩ := hb
              have := congrArg (List.map fun co : CoinOutput => (amount co.value, co.condition)) b2
              refine ⟨v, (amount a, c), p, rfl, by simp [asked, h1, hc, h3], by simpa [bareOutput, Function.comp_def] using this, by rw [b3]; rfl,
                by rw [b4]; exact h4, by rw [b4]; exact h5, b1, hp, b5⟩

example : ∃ t, Produces (demoBots.coinsNew (List.replicate 8 1) (.uh (addrOf key2)) (.int 5) .none (.str "hi".toList)) t := by
  have h : (demoBots.coinsNew (List.replicate 8 1) (.uh (addrOf key2)) (.int 5) .none (.str "hi".toList)).posted.length = 1 := by decide +kernel
  obtain ⟨t, ht⟩ := List.length_eq_one_iff.1 h
  exact ⟨t, .inl (by rw [ht]; simp)⟩
example : asked toyHash (.uh (addrOf key2)) (.int 5) .none = some (5000000000, .unlockHash (addrOf key2)) := by decide +kernel
example : (demoBots.coinsNew (List.replicate 8 1) (.uh (addrOf key2)) (.int 0) .none .none).result.toBool = false := by decide +kernel

/-- **C81** (`minter.definition_set`). Whatever the operation posts or returns sets exactly the mint condition asked for, which belongs to a
personal or a multi-signature address; it carries the given data (at most 83 bytes), the nonce and the minimum miner fee, and is to be signed
for the current mint condition. -/
theorem C81_definition_set (W : World) (nonce : Bytes) (minter : Recipient) (data : DataArg) (t : Tx)
    (ht : Produces (W.definitionSet nonce minter data) t) :
    ∃ (v : TxV128) (c : Condition) (u : UnlockHash), t = .v128 v ∧ fromRecipient W.H minter .none = .ok v.mintCondition ∧
      v.mintCondition.unlockhash W.H = .ok u ∧ (u.type = 1 ∨ u.type = 3) ∧ v.minerFees.map amount = [amount W.fee] ∧
      payload data = some v.data ∧ v.data.length ≤ 83 ∧ v.nonce = nonce ∧ W.mintCondition = .ok c ∧ v.parent = some c := by
  obtain ⟨t0, ht0, ht⟩ := ofRes_produces ht
  obtain ⟨t1, ht1, ht⟩ := ofRes_produces ht
  have hb : bare t = bare t0 := by
    rw [← signNew_bare ht1]
    unfold World.submitOnly at ht
    obtain ⟨ok, _, ht⟩ := ofRes_produces ht
    cases ok with
    | true =>
      rcases ht with h | ⟨b, h⟩
      · simp only [if_true, List.mem_singleton] at h; rw [h]
      · simp only [if_true, bind, Except.bind] at h
        split at h <;> cases h
        rfl
    | false =>
      rcases ht with h | ⟨b, h⟩ <;> cases h
      rfl
  unfold World.mintDefinition at ht0
  simp only [bind, Except.bind] at ht0
  split at ht0
  · cases ht0
  · rename_i fee hfee
    cases hfee
    split at ht0
    · cases ht0
    · rename_i c hc
      split at ht0
      · cases ht0
      · rename_i hm
        split at ht0
        · cases ht0
        · rename_i d hd
          split at ht0
          · cases ht0
          · rename_i p hp
            split at ht0
            · cases ht0
            · cases ht0
              obtain ⟨h4, h5⟩ := dataUnlessNone_payload hd
              cases t <;> simp only [bare, reduceCtorEq] at hb
              rename TxV128 => v
              simp only [Tx.v128.injEq, TxV128.mk.injEq] at hb
              unfold minterType at hm
              simp only [bind, Except.bind] at hm
              split at hm
              · cases hm
              · rename_i u hu
                split at hm
                · rename_i hty
                  refine ⟨v, p, u, rfl, ?_, ?_, hty, ?_, ?_, ?_, ?_, hp, ?_⟩ <;> simp_all
                  rfl
                · cases hm

example : answered (demoBots.definitionSet (List.replicate 8 1) (.list [.uh (addrOf key2), .uh (addrOf key1)]) (.str "hi".toList)) =
    ([(128, 0)], .ok true) ∧ answered (demoBots.definitionSet (List.replicate 8 1) .none .none) = ([], .error .valueError) := by decide +kernel

end TF.Props
