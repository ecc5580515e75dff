import Verif.Lemmas.Overflow
/-! # The 28-digit rounding of the decimal context, as a specification -/
namespace TF.Props
open TF Spec

/-- The number of digits beyond 28. -/
theorem digits_beyond {s : Nat} (h : 10 ^ 28 ≤ s) : ∃ k, 10 ^ 27 * 10 ^ k ≤ s ∧ s < 10 ^ 28 * 10 ^ k := by
  have hex : ∀ n, s < 10 ^ 28 * 10 ^ n → ∃ k, 10 ^ 27 * 10 ^ k ≤ s ∧ s < 10 ^ 28 * 10 ^ k := by
    intro n
    induction n with
    | zero => intro hn; omega
    | succ n ih =>
      intro hn
      by_cases hlt : s < 10 ^ 28 * 10 ^ n
      · exact ih hlt
      · refine ⟨n + 1, ?_, hn⟩
        have : 10 ^ 27 * 10 ^ (n + 1) = 10 ^ 28 * 10 ^ n := by rw [Nat.pow_succ 10 n]; omega
        omega
  refine hex s ?_
  have h1 : s < 10 ^ s := Nat.lt_pow_self (by decide)
  have h2 : 10 ^ s ≤ 10 ^ 28 * 10 ^ s := Nat.le_mul_of_pos_left _ (by decide)
  omega

/-- Rounding commutes with appending zeros. -/
theorem nearest_scale {s n : Nat} (m : Nat) (h : Nearest28 s n) : Nearest28 (s * 10 ^ m) (n * 10 ^ m) := by
  have hm : 0 < 10 ^ m := Nat.pow_pos (by decide)
  obtain ⟨h1, h2⟩ := h
  by_cases hs : s < 10 ^ 28
  · have hns := h1 hs
    subst hns
    refine ⟨fun _ => rfl, fun hb => ?_⟩
    obtain ⟨k, hk1, hk2⟩ := digits_beyond hb
    have hkm : k ≤ m := by
      refine Nat.le_of_not_lt fun hlt => ?_
      have e1 : n * 10 ^ m < 10 ^ 28 * 10 ^ m := Nat.mul_lt_mul_of_pos_right hs hm
      have e2 : 10 ^ (m + 1) ≤ 10 ^ k := Nat.pow_le_pow_right (by decide) hlt
      have e3 : 10 ^ (m + 1) = 10 * 10 ^ m := by rw [Nat.pow_succ]; omega
      omega
    refine ⟨k, n * 10 ^ (m - k), hk1, hk2, ?_, by omega, by omega, fun ht => ?_⟩
    · rw [Nat.mul_assoc, ← Nat.pow_add]
      congr 2
      omega
    · have : 0 < 10 ^ k := Nat.pow_pos (by decide)
      omega
  · have hs' : 10 ^ 28 ≤ s := by omega
    have hbig : s ≤ s * 10 ^ m := Nat.le_mul_of_pos_right _ hm
    refine ⟨fun hlt => by omega, fun _ => ?_⟩
    obtain ⟨k, q, a1, a2, a3, a4, a5, a6⟩ := h2 hs'
    refine ⟨k + m, q, ?_, ?_, ?_, ?_, ?_, ?_⟩
    · rw [Nat.pow_add, ← Nat.mul_assoc]; exact Nat.mul_le_mul_right _ a1
    · rw [Nat.pow_add, ← Nat.mul_assoc]; exact Nat.mul_lt_mul_of_pos_right a2 hm
    · rw [a3, Nat.pow_add, ← Nat.mul_assoc]
    · rw [Nat.pow_add, ← Nat.mul_assoc, ← Nat.mul_assoc, ← Nat.add_mul]; exact Nat.mul_le_mul_right _ a4
    · rw [Nat.pow_add, ← Nat.mul_assoc, ← Nat.mul_assoc, ← Nat.add_mul]; exact Nat.mul_le_mul_right _ a5
    · rw [Nat.pow_add, ← Nat.mul_assoc, ← Nat.mul_assoc, ← Nat.add_mul, ← Nat.add_mul]
      intro ht
      refine a6 (ht.imp ?_ ?_) <;> exact fun e => Nat.eq_of_mul_eq_mul_right hm e

/-- One rounding step, spelled out. -/
theorem divPow10_spec (c k : Nat) : ∃ r, r < 10 ^ k ∧ c = c / 10 ^ k * 10 ^ k + r ∧
    ((divPow10HalfEven c k = c / 10 ^ k ∧ 2 * r ≤ 10 ^ k ∧ (2 * r = 10 ^ k → c / 10 ^ k % 2 = 0)) ∨
     (divPow10HalfEven c k = c / 10 ^ k + 1 ∧ 10 ^ k ≤ 2 * r ∧ (2 * r = 10 ^ k → (c / 10 ^ k + 1) % 2 = 0))) := by
  refine ⟨c % 10 ^ k, Nat.mod_lt _ (Nat.pow_pos (by decide)), (Nat.div_add_mod' c (10 ^ k)).symm, ?_⟩
  unfold divPow10HalfEven
  simp only
  split <;> omega

/-- Rounding to the context precision gives the nearest 28-digit number. -/
theorem decFix_nearest (neg : Bool) (c : Nat) (e : Int) : ∃ q j : Nat, decFix ⟨neg, c, e⟩ = ⟨neg, q, e + (j : Int)⟩ ∧ Nearest28 c (q * 10 ^ j) := by
  by_cases hc : c < 10 ^ 28
  · refine ⟨c, 0, ?_, fun _ => by omega, fun h => by omega⟩
    rw [decFix_of_lt hc]
    simp
  · have hn : ¬ (natStr c).length ≤ decPrec := (natStr_length_le c).not.2 hc
    have hcb : 10 ^ 28 ≤ c := by omega
    obtain ⟨k, hk⟩ : ∃ k, k = (natStr c).length - decPrec := ⟨_, rfl⟩
    have hlo : 10 ^ 27 * 10 ^ k ≤ c := by
      have h1 : ¬ (natStr c).length ≤ k + 27 := by unfold decPrec at hk hn; omega
      unfold natStr at h1
      rw [Nat.length_toDigits_le_iff (by decide) (by omega)] at h1
      rw [← Nat.pow_add, Nat.add_comm]
      omega
    have hhi : c < 10 ^ 28 * 10 ^ k := by
      have h1 : (natStr c).length ≤ k + 28 := by unfold decPrec at hk; omega
      unfold natStr at h1
      rw [Nat.length_toDigits_le_iff (by decide) (by omega)] at h1
      rw [← Nat.pow_add, Nat.add_comm]
      exact h1
    obtain ⟨r, hr1, hr2, hr3⟩ := divPow10_spec c k
    obtain ⟨D, hD⟩ : ∃ D, D = divPow10HalfEven c k := ⟨_, rfl⟩
    have hfix : decFix ⟨neg, c, e⟩ = if (natStr D).length ≤ decPrec then ⟨neg, D, e + k⟩ else ⟨neg, D / 10, e + k + 1⟩ := by
      unfold decFix
      simp only
      rw [if_neg hn, ← hk, ← hD]
    rw [← hD] at hr3
    obtain ⟨P, hP⟩ : ∃ P, P = 10 ^ k := ⟨_, rfl⟩
    have hPpos : 0 < P := by rw [hP]; exact Nat.pow_pos (by decide)
    rw [← hP] at hr1 hr2 hr3 hlo hhi
    obtain ⟨Q, hQ⟩ : ∃ Q, Q = c / P := ⟨_, rfl⟩
    rw [← hQ] at hr2 hr3
    have hnear : ∃ q, D * P = q * P ∧ 2 * (D * P) ≤ 2 * c + P ∧ 2 * c ≤ 2 * (D * P) + P ∧
        ((2 * (D * P) = 2 * c + P ∨ 2 * c = 2 * (D * P) + P) → q % 2 = 0) := by
      refine ⟨D, rfl, ?_⟩
      rcases hr3 with ⟨h1, h2, h3⟩ | ⟨h1, h2, h3⟩
      · rw [h1]
        exact ⟨by omega, by omega, fun _ => h3 (by omega)⟩
      · rw [h1, Nat.add_mul, Nat.one_mul]
        exact ⟨by omega, by omega, fun _ => h3 (by omega)⟩
    obtain ⟨q, n1, n2, n3, n4⟩ := hnear
    by_cases hl : (natStr D).length ≤ decPrec
    · refine ⟨D, k, by rw [hfix, if_pos hl], fun h => by omega, fun _ => ⟨k, q, ?_⟩⟩
      rw [← hP]
      exact ⟨hlo, hhi, n1, n2, n3, n4⟩
    · have hDge : 10 ^ 28 ≤ D := by
        have := (natStr_length_le D).not.1 hl
        omega
      have hDle : D ≤ 10 ^ 28 := by
        have hQlt : Q < 10 ^ 28 := by
          rw [hQ]
          exact Nat.div_lt_of_lt_mul (by rw [Nat.mul_comm]; exact hhi)
        rcases hr3 with ⟨h1, _⟩ | ⟨h1, _⟩ <;> omega
      have hDeq : D = 10 ^ 28 := by omega
      refine ⟨D / 10, k + 1, ?_, fun h => by omega, fun _ => ⟨k, q, ?_⟩⟩
      · rw [hfix, if_neg hl]
        congr 1
        omega
      · have : D / 10 * 10 ^ (k + 1) = D * P := by
          rw [Nat.pow_succ, ← hP, Nat.mul_comm P 10, ← Nat.mul_assoc, hDeq]
        rw [← hP, this]
        exact ⟨hlo, hhi, n1, n2, n3, n4⟩

end TF.Props
