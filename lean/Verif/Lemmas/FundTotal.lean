import Verif.Props.Payment
/-! # Funding raises nothing but `InsufficientFunds` -/
namespace TF.Props
open TF Spec

theorem mapM_total {α β : Type} {f : α → Res β} {l : List α} (h : ∀ a ∈ l, ∃ b, f a = .ok b) : ∃ r, l.mapM f = .ok r := by
  induction l with
  | nil => exact ⟨[], rfl⟩
  | cons a l ih =>
    obtain ⟨b, hb⟩ := h a List.mem_cons_self
    obtain ⟨r, hr⟩ := ih fun x hx => h x (List.mem_cons_of_mem _ hx)
    exact ⟨b :: r, by rw [List.mapM_cons, hb, hr]; rfl⟩

theorem filterAddress_total {H : Bytes → Bytes} {addrs : List UnlockHash} {l : List CoinOutput} (h : ∀ co ∈ l, ∃ u, co.condition.unlockhash H = .ok u) :
    ∃ r, filterAddress H addrs l = .ok r := by
  induction l with
  | nil => exact ⟨[], rfl⟩
  | cons co l ih =>
    obtain ⟨u, hu⟩ := h co List.mem_cons_self
    obtain ⟨r, hr⟩ := ih fun x hx => h x (List.mem_cons_of_mem _ hx)
    exact ⟨_, by unfold filterAddress; rw [hu, hr]; rfl⟩

theorem fundPersonal_total {H : Bytes → Bytes} {w : Wallets} {a : Currency} {addrs : List UnlockHash} (ha : GoodCurrency a) (hw : WellFiled H w)
    (hs : SaneOutputs (personalElig H w addrs)) : ∃ r, w.fundPersonal H a addrs = .ok r := by
  unfold Wallets.fundPersonal
  split
  · exact ⟨_, rfl⟩
  · have hp : ∀ co ∈ spendable w.base, ∃ u, co.condition.unlockhash H = .ok u := fun co hco => by obtain ⟨u, hu, -⟩ := hw.personal co hco; exact ⟨u, hu⟩
    obtain ⟨conf, hconf⟩ := filterAddress_total (addrs := addrs) (l := w.base.available) fun co hco => hp co (List.mem_append_left _ hco)
    obtain ⟨unc, hunc⟩ := filterAddress_total (addrs := addrs) (l := w.base.unconfAvailable) fun co hco => hp co (List.mem_append_right _ hco)
    have he : personalElig H w addrs = conf ++ unc := by
      rw [filterAddress_eq hconf, filterAddress_eq hunc, ← List.filter_append]; rfl
    rw [he] at hs
    obtain ⟨d, o, c, h1, -⟩ := fundFrom_spec ha conf unc [] _ good_zero (by rw [amount_zero]; rfl) (by simp) (by simpa using hs)
    have hz : Currency.set (.int 0) = .ok ⟨some ⟨false, 0, 0⟩⟩ := rfl
    unfold Wallets.fundIndividual
    simp only [hconf, hunc, hz, bind, Except.bind]
    exact ⟨_, h1⟩

theorem fundMulti_total {H : Bytes → Bytes} {a : Currency} {addrs : List UnlockHash} (ha : GoodCurrency a) (ws : MultiMap)
    (hws : ∀ p ∈ ws, ∃ u, Names H p.1 u) {outs : List CoinOutput} {c : Currency} (hc : GoodCurrency c) (hco : amount c = total outs) (hl : outs.length ≤ maxInputs)
    (hs : SaneOutputs (outs ++ multiElig H addrs ws)) : ∃ r, fundMulti H a addrs ws outs c = .ok r := by
  induction ws generalizing outs c with
  | nil => exact ⟨_, rfl⟩
  | cons p ws ih =>
    obtain ⟨u, hu⟩ := hws p List.mem_cons_self
    have ih := fun {outs : List CoinOutput} {c : Currency} => ih (fun q hq => hws q (List.mem_cons_of_mem _ hq)) (outs := outs) (c := c)
    unfold fundMulti
    unfold Names at hu
    simp only [hu, bind, Except.bind]
    rw [multiElig_cons] at hs
    have hw : walletIn H addrs p = addrs.contains u := by unfold walletIn; rw [hu]
    rw [hw] at hs
    by_cases hin : addrs.contains u = true
    · rw [if_pos hin] at hs
      rw [if_pos hin]
      have hs1 : SaneOutputs (outs ++ spendable p.2.base) :=
        SaneOutputs.sublist hs (by rw [← List.append_assoc]; exact List.sublist_append_left _ _)
      obtain ⟨d, o, c', h1, h2, h3, h4, h5⟩ := fundFrom_spec ha p.2.base.available p.2.base.unconfAvailable outs c hc hco hl hs1
      rw [h1]
      simp only
      have hsh := fundFrom_shape h1 hl
      simp only at hsh
      cases d with
      | true => exact ⟨_, rfl⟩
      | false =>
        refine ih h2 h3 hsh.1 ⟨?_, ?_⟩
        · intro co hco
          refine hs.1 co ?_
          rcases List.mem_append.1 hco with h | h
          · rw [← List.append_assoc]
            exact List.mem_append_left _ (hsh.2.subset h)
          · simp [h]
        · have h6 : total o ≤ total (outs ++ spendable p.2.base) := by
            obtain ⟨l, hp, hsub⟩ := hsh.2
            rw [← total_perm hp]; exact total_sublist hsub
          have := hs.2
          rw [← List.append_assoc, total_append] at this
          rw [total_append]; omega
    · rw [if_neg hin] at hs ⊢
      exact ih hc hco hl hs

/-- Funding succeeds or raises `InsufficientFunds`. -/
theorem fund_total {H : Bytes → Bytes} {w : Wallets} {a : Currency} {src : Source} {x : List UnlockHash × List UnlockHash × Option Condition} (ha : GoodCurrency a)
    (hw : WellFiled H w) (hs : SaneOutputs (walletsSpendable w)) (hsrc : w.sources H src = .ok x)
    (hf : ∀ co ∈ walletsSpendable w, ∃ ci, CoinInput.ofOutput co = .ok ci) :
    (∃ r, w.fund H a src = .ok r) ∨ w.fund H a src = .error .insufficientFunds := by
  obtain ⟨addrs, ms, rf⟩ := x
  have hse := SaneOutputs.sublist hs (elig_sublist H w addrs ms)
  have hsp : SaneOutputs (personalElig H w addrs) := SaneOutputs.sublist hse (List.sublist_append_left _ _)
  obtain ⟨⟨d, outs, c⟩, hp⟩ := fundPersonal_total ha hw hsp
  have hshape := fundPersonal_shape hp
  obtain ⟨g1, g2, -⟩ := fundPersonal_spec ha hsp hp
  simp only at g1 g2 hshape
  have hres : ∀ (o : List CoinOutput) (c : Currency), GoodCurrency c → amount c = total o → o.Subperm (elig H w addrs ms) → amount a ≤ amount c →
      ∃ r, fundResult a o c rf = .ok r := by
    intro o c hc hco hsub hle
    obtain ⟨l, hpm, hsl⟩ := hsub
    have hlt : amount c < 10 ^ 28 := by
      rw [hco, ← total_perm hpm]; exact Nat.lt_of_le_of_lt (total_sublist hsl) hse.2
    obtain ⟨rem, hrem, -⟩ := sub_amount hc ha hlt hle
    obtain ⟨ins, hins⟩ := mapM_total (f := CoinInput.ofOutput) (l := o) fun co hco => hf co ((elig_sublist H w addrs ms).subset (hsl.subset (hpm.symm.subset hco)))
    exact ⟨_, by unfold fundResult; rw [hins, hrem]; rfl⟩
  have hpe : outs.Subperm (elig H w addrs ms) := hshape.2.trans (List.sublist_append_left _ _).subperm
  unfold Wallets.fund
  simp only [hsrc, hp, bind, Except.bind, throw, throwThe, MonadExceptOf.throw]
  split
  · exact .inr rfl
  · split
    · rename_i hle
      exact .inl (hres outs c g1 g2 hpe ((le_amount ha g1).mp hle))
    · split
      · exact .inr rfl
      · have hs2 : SaneOutputs (outs ++ multiElig H ms w.wallets) := by
          refine ⟨?_, ?_⟩
          · intro co hco
            refine hse.1 co ?_
            rcases List.mem_append.1 hco with h | h
            · exact hpe.subset h
            · exact List.mem_append_right _ h
          · have h6 : total outs ≤ total (personalElig H w addrs) := by
              obtain ⟨l, hpm, hsub⟩ := hshape.2
              rw [← total_perm hpm]; exact total_sublist hsub
            have := hse.2
            unfold elig at this
            rw [total_append] at this ⊢
            omega
        obtain ⟨⟨o, c'⟩, hm⟩ := fundMulti_total (addrs := ms) ha w.wallets (fun p hpm => by obtain ⟨u, hu, -⟩ := hw.multi p hpm; exact ⟨u, hu⟩) g1 g2 hshape.1 hs2
        obtain ⟨m1, m2, -⟩ := (fundMulti_spec ha w.wallets g1 g2 hshape.1 hs2).2 _ hm
        have hsh := (fundMulti_shape hm hshape.1).2
        rw [hm]
        simp only at m1 m2 hsh ⊢
        split
        · exact .inr rfl
        · rename_i hlt
          refine .inl (hres o c' m1 m2 (hsh.trans (List.Subperm.append hshape.2 (List.Subperm.refl _))) ?_)
          have := (lt_amount m1 ha).not.mp hlt
          omega

end TF.Props
