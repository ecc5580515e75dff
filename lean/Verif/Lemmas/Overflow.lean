import Verif.Lemmas.Balance
/-! # Sums that leave the range of exact decimal arithmetic stay out of it -/
namespace TF.Props
open TF Spec

theorem divPow10_ge (c k : Nat) : c / 10 ^ k ≤ divPow10HalfEven c k := by
  unfold divPow10HalfEven
  simp only
  split <;> omega

/-- Rounding to 28 digits does not bring a number below 10^28. -/
theorem decFix_big {c : Nat} {e : Int} (he : -9 ≤ e) (h : 10 ^ 28 ≤ c * 10 ^ (e + 9).toNat) : 10 ^ 28 ≤ units (decFix ⟨false, c, e⟩) := by
  unfold decFix
  simp only
  split
  · exact h
  · rename_i hn
    have hc : 10 ^ 28 ≤ c := by
      have := (natStr_length_le c).not.1 hn
      omega
    generalize hk : (natStr c).length - decPrec = k
    have hkpos : 1 ≤ k := by omega
    have hlen : 10 ^ (k + 27) ≤ c := by
      have h1 : ¬ (natStr c).length ≤ k + 27 := by unfold decPrec at hk hn; omega
      unfold natStr at h1
      rw [Nat.length_toDigits_le_iff (by decide) (by omega)] at h1
      omega
    have hq : 10 ^ 27 ≤ divPow10HalfEven c k := by
      refine Nat.le_trans ?_ (divPow10_ge c k)
      rw [Nat.le_div_iff_mul_le (Nat.pow_pos (by decide)), ← Nat.pow_add, Nat.add_comm]
      exact hlen
    have scale : ∀ n : Nat, ∀ j : Nat, 10 ^ 28 ≤ n * 10 ^ j → 10 ^ 28 ≤ units ⟨false, n, e + (j : Int)⟩ := by
      intro n j hj
      unfold units
      simp only
      have : (e + (j : Int) + 9).toNat = j + (e + 9).toNat := by omega
      rw [this, Nat.pow_add, ← Nat.mul_assoc]
      exact Nat.le_trans hj (Nat.le_mul_of_pos_right _ (Nat.pow_pos (by decide)))
    split
    · refine scale _ k ?_
      calc 10 ^ 28 = 10 ^ 27 * 10 ^ 1 := by decide
        _ ≤ divPow10HalfEven c k * 10 ^ k := Nat.mul_le_mul hq (Nat.pow_le_pow_right (by decide) hkpos)
    · rename_i hn2
      have hq2 : 10 ^ 28 ≤ divPow10HalfEven c k := by
        have := (natStr_length_le (divPow10HalfEven c k)).not.1 hn2
        omega
      have : e + (k : Int) + 1 = e + ((k + 1 : Nat) : Int) := by omega
      rw [this]
      refine scale _ (k + 1) ?_
      have h1 : 10 ^ 27 ≤ divPow10HalfEven c k / 10 := by omega
      calc 10 ^ 28 = 10 ^ 27 * 10 ^ 1 := by decide
        _ ≤ divPow10HalfEven c k / 10 * 10 ^ (k + 1) := Nat.mul_le_mul h1 (Nat.pow_le_pow_right (by decide) (by omega))

theorem add_big {a b r : Currency} (ha : GoodCurrency a) (hb : GoodCurrency b) (h : a.add (.cur b) = .ok r) :
    (amount r = amount a + amount b) ∨ 10 ^ 28 ≤ amount r := by
  by_cases hlt : amount a + amount b < 10 ^ 28
  · obtain ⟨c, h1, _, h3⟩ := add_amount ha hb hlt
    rw [h1] at h; cases h; exact .inl h3
  · refine .inr ?_
    obtain ⟨c, e, h1, h2, h3⟩ := add_raw ha hb
    unfold Currency.add at h
    simp only [COperand.asCurrency, bind, Except.bind] at h
    rw [h1] at h
    simp only [Currency.set] at h
    obtain ⟨_, d, hd, rfl⟩ := checkDec_good h
    cases hd
    refine decFix_big h2 ?_
    rw [h3]
    unfold amount at hlt
    omega

/-- Adding up amounts is exact, or the result is at least 10^28. -/
theorem foldAdd_big {l : List Currency} (hl : ∀ c ∈ l, GoodCurrency c) : ∀ {a r : Currency}, GoodCurrency a →
    l.foldlM (fun (acc : Currency) v => acc.add (.cur v)) a = .ok r → GoodCurrency r ∧
      ((amount r = amount a + (l.map amount).sum) ∨ 10 ^ 28 ≤ amount r) ∧ (10 ^ 28 ≤ amount a → 10 ^ 28 ≤ amount r) := by
  induction l with
  | nil =>
    intro a r ha h
    simp only [List.foldlM_nil, pure, Except.pure, Except.ok.injEq] at h
    subst h
    exact ⟨ha, .inl (by simp), id⟩
  | cons v l ih =>
    intro a r ha h
    rw [List.foldlM_cons] at h
    simp only [bind, Except.bind] at h
    split at h
    · cases h
    · rename_i s hs
      have hv := hl v List.mem_cons_self
      obtain ⟨h1, h2, h3⟩ := ih (fun c hc => hl c (List.mem_cons_of_mem _ hc)) (add_good hs) h
      refine ⟨h1, ?_, ?_⟩
      · rcases add_big ha hv hs with e | e
        · rcases h2 with h2 | h2
          · exact .inl (by rw [h2, e]; simp [Nat.add_assoc])
          · exact .inr h2
        · exact .inr (h3 e)
      · intro hbig
        refine h3 ?_
        rcases add_big ha hv hs with e | e <;> omega

end TF.Props
