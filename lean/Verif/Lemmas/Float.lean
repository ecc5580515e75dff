import Verif.Model.Float
import Verif.Lemmas.Duration
import Mathlib.Tactic.Linarith
import Mathlib.Tactic.Positivity
import Mathlib.Tactic.NormNum
import Mathlib.Tactic.Ring
import Mathlib.Tactic.FieldSimp
/-! # How far floats are from what they stand for -/
namespace TF

theorem roundEven_near (q : ℚ) : |(roundEven q : ℚ) - q| ≤ 1 / 2 := by
  have h1 := Int.floor_le q
  have h2 := Int.lt_floor_add_one q
  unfold roundEven
  simp only
  rw [abs_le]
  split_ifs with a b c <;> push_cast <;> constructor <;> linarith

theorem roundEven_int (n : Int) : roundEven n = n := by
  unfold roundEven
  simp

theorem roundEven_nonneg {q : ℚ} (h : 0 ≤ q) : 0 ≤ roundEven q := by
  have : 0 ≤ ⌊q⌋ := Int.floor_nonneg.2 h
  unfold roundEven
  simp only
  split_ifs <;> omega

/-- A float is within one part in 2^53. -/
theorem fl_near {q : ℚ} (h : 0 ≤ q) : |fl q - q| ≤ q / 2 ^ 53 := by
  by_cases h0 : q = 0
  · subst h0; simp [fl]
  have hq : 0 < q := lt_of_le_of_ne h (Ne.symm h0)
  have hl := Int.zpow_log_le_self (b := 2) (r := q) (by norm_num) hq
  unfold fl
  rw [if_neg h0]
  obtain ⟨e, he⟩ : ∃ e : ℚ, (2 : ℚ) ^ (Int.log 2 q - 52) = e := ⟨_, rfl⟩
  have hpos : 0 < e := by rw [← he]; exact zpow_pos (by norm_num) _
  have hle : e * 2 ^ 52 ≤ q := by
    have : (2 : ℚ) ^ (Int.log 2 q) = e * 2 ^ 52 := by
      rw [← he, ← zpow_natCast (2 : ℚ) 52, ← zpow_add₀ (by norm_num)]
      congr 1
      norm_num
    rw [← this]
    exact_mod_cast hl
  rw [he]
  have hr := roundEven_near (q / e)
  have : (roundEven (q / e) : ℚ) * e - q = ((roundEven (q / e) : ℚ) - q / e) * e := by field_simp
  rw [this, abs_mul, abs_of_pos hpos]
  calc |(roundEven (q / e) : ℚ) - q / e| * e ≤ 1 / 2 * e := by gcongr
    _ ≤ q / 2 ^ 53 := by linarith

theorem fl_nonneg {q : ℚ} (h : 0 ≤ q) : 0 ≤ fl q := by
  have := abs_le.1 (fl_near h)
  linarith

/-- Whole numbers below 2^53 are floats. -/
theorem fl_whole {n : Nat} (h : n < 2 ^ 53) : fl n = n := by
  by_cases h0 : n = 0
  · subst h0; simp [fl]
  have hq : (0 : ℚ) < n := by exact_mod_cast Nat.pos_of_ne_zero h0
  have hl : Int.log 2 (n : ℚ) < 53 := by
    have h1 := Int.zpow_log_le_self (b := 2) (r := (n : ℚ)) (by norm_num) hq
    have h2 : (n : ℚ) < 2 ^ (53 : ℤ) := by
      have : (n : ℚ) < 2 ^ 53 := by exact_mod_cast h
      exact_mod_cast this
    have h3 : ((2 : ℕ) : ℚ) ^ Int.log 2 (n : ℚ) < ((2 : ℕ) : ℚ) ^ (53 : ℤ) := lt_of_le_of_lt h1 (by exact_mod_cast h2)
    exact (zpow_lt_zpow_iff_right₀ (by norm_num)).1 h3
  obtain ⟨k, hk⟩ : ∃ k : ℕ, (k : ℤ) = 52 - Int.log 2 (n : ℚ) := ⟨(52 - Int.log 2 (n : ℚ)).toNat, by omega⟩
  unfold fl
  rw [if_neg (by exact_mod_cast h0)]
  have e : (2 : ℚ) ^ (Int.log 2 (n : ℚ) - 52) = ((2 : ℚ) ^ k)⁻¹ := by
    rw [← zpow_natCast, ← zpow_neg]
    congr 1
    omega
  rw [e]
  have e2 : (n : ℚ) / ((2 : ℚ) ^ k)⁻¹ = (((n * 2 ^ k : ℕ) : ℤ) : ℚ) := by
    push_cast
    field_simp
  rw [e2, roundEven_int]
  push_cast
  field_simp

/-- One unit is added: the error. -/
theorem accumUs_near {acc : Int × ℚ} {n : Nat} {v q : ℚ} (hv : |v - q| ≤ q / 2 ^ 53) (hq : 0 ≤ q)
    {k : Nat} (hk : k ≤ 4) (h0 : 0 ≤ acc.1) (hl : 0 ≤ acc.2) (hlk : acc.2 ≤ 2 * k) :
    let r := accumUs acc (n, v)
    0 ≤ r.1 ∧ 0 ≤ r.2 ∧ r.2 ≤ 2 * (k + 1 : Nat) ∧
      |(r.1 + r.2) - (acc.1 + acc.2) - n * 10 ^ 6 * q| ≤ n * 10 ^ 6 * (q + 1) / 2 ^ 53 + 10 / 2 ^ 53 := by
  have hv0 : 0 ≤ v := by have := abs_le.1 hv; linarith
  have hfl := Int.floor_le v
  have hfl2 := Int.lt_floor_add_one v
  have hi : 0 ≤ ⌊v⌋ := Int.floor_nonneg.2 hv0
  have hF : (0 : ℚ) ≤ n * 10 ^ 6 := by positivity
  have hvF : |(n * 10 ^ 6 : ℚ) * v - n * 10 ^ 6 * q| ≤ n * 10 ^ 6 * q / 2 ^ 53 := by
    rw [← mul_sub, abs_mul, abs_of_nonneg hF, mul_div_assoc]
    gcongr
  have hkk : (k : ℚ) ≤ 4 := by exact_mod_cast hk
  unfold accumUs
  simp only
  split_ifs with hf
  · refine ⟨by positivity, hl, by push_cast; linarith, ?_⟩
    have hvi : v = ⌊v⌋ := by linarith
    have : ((acc.1 + ⌊v⌋ * (n * 10 ^ 6) : Int) : ℚ) + acc.2 - (acc.1 + acc.2) - n * 10 ^ 6 * q = n * 10 ^ 6 * v - n * 10 ^ 6 * q := by
      push_cast
      rw [← hvi]
      ring
    rw [this]
    refine hvF.trans ?_
    have : (n * 10 ^ 6 : ℚ) * q / 2 ^ 53 ≤ n * 10 ^ 6 * (q + 1) / 2 ^ 53 := by gcongr; linarith
    linarith
  · have hff : 0 ≤ v - ⌊v⌋ := by linarith
    have hff1 : v - ⌊v⌋ ≤ 1 := by linarith
    obtain ⟨p, hp⟩ : ∃ p, fl ((v - ⌊v⌋) * ((n * 10 ^ 6 : Int) : ℚ)) = p := ⟨_, rfl⟩
    have hnn : 0 ≤ (v - ⌊v⌋) * ((n * 10 ^ 6 : Int) : ℚ) := mul_nonneg hff (by push_cast; exact hF)
    have hpn := fl_near hnn
    have hp0 := fl_nonneg hnn
    rw [hp] at hpn hp0
    rw [hp]
    have hj := Int.floor_le p
    have hj2 := Int.lt_floor_add_one p
    have hj0 : 0 ≤ ⌊p⌋ := Int.floor_nonneg.2 hp0
    have hs0 : 0 ≤ acc.2 + (p - ⌊p⌋) := by linarith
    have hln := abs_le.1 (fl_near hs0)
    have hl0 := fl_nonneg hs0
    have hsm : (acc.2 + (p - ⌊p⌋)) / 2 ^ 53 ≤ 10 / 2 ^ 53 := by
      gcongr
      linarith
    refine ⟨by positivity, hl0, ?_, ?_⟩
    · push_cast
      have : (10 : ℚ) / 2 ^ 53 ≤ 1 := by norm_num
      linarith
    · have hpn2 : |p - (v - ⌊v⌋) * ((n : ℚ) * 10 ^ 6)| ≤ (n : ℚ) * 10 ^ 6 / 2 ^ 53 := by
        have e : (((n * 10 ^ 6 : Int)) : ℚ) = (n : ℚ) * 10 ^ 6 := by push_cast; rfl
        rw [e] at hpn
        exact hpn.trans (div_le_div_of_nonneg_right (mul_le_of_le_one_left hF hff1) (by positivity))
      have a1 := abs_le.1 hpn2
      have a2 := abs_le.1 hvF
      have e : (n * 10 ^ 6 : ℚ) * (q + 1) / 2 ^ 53 = n * 10 ^ 6 * q / 2 ^ 53 + n * 10 ^ 6 / 2 ^ 53 := by ring
      rw [e, abs_le]
      push_cast
      constructor <;> linarith

/-- The units, what is read for each, and what each stands for. -/
abbrev Terms := List (Nat × ℚ × ℚ)

def Terms.sum (ts : Terms) : ℚ := (ts.map fun t : Nat × ℚ × ℚ => (t.1 : ℚ) * t.2.2).sum

def Terms.Near (ts : Terms) : Prop := ∀ t ∈ ts, t.1 ≤ 86400 ∧ |t.2.1 - t.2.2| ≤ t.2.2 / 2 ^ 53 ∧ 0 ≤ t.2.2

def Terms.slack (ts : Terms) : ℚ := (ts.map fun t : Nat × ℚ × ℚ => (t.1 : ℚ) * 10 ^ 6 * (t.2.2 + 1) / 2 ^ 53 + 10 / 2 ^ 53).sum

theorem fold_near : ∀ (ts : Terms) (acc : Int × ℚ) (k : Nat), ts.Near → k + ts.length ≤ 5 → 0 ≤ acc.1 → 0 ≤ acc.2 → acc.2 ≤ 2 * k →
    let r := (ts.map fun t => (t.1, t.2.1)).foldl accumUs acc
    0 ≤ r.1 ∧ 0 ≤ r.2 ∧ |(r.1 + r.2) - (acc.1 + acc.2) - 10 ^ 6 * ts.sum| ≤ ts.slack
  | [], acc, k, _, _, h1, h2, _ => by simp [Terms.sum, Terms.slack, h1, h2]
  | (n, v, q) :: ts, acc, k, hn, hk, h1, h2, h3 => by
    obtain ⟨-, a2, a3⟩ := hn (n, v, q) (by simp)
    obtain ⟨b1, b2, b3, b4⟩ := accumUs_near a2 a3 (k := k) (by simp only [List.length_cons] at hk; omega) h1 h2 h3
    obtain ⟨c1, c2, c3⟩ := fold_near ts (accumUs acc (n, v)) (k + 1) (fun t ht => hn t (by simp [ht])) (by simp only [List.length_cons] at hk; omega) b1 b2 b3
    refine ⟨c1, c2, ?_⟩
    simp only [List.map_cons, List.foldl_cons]
    have e1 : Terms.sum ((n, v, q) :: ts) = n * q + Terms.sum ts := by simp [Terms.sum]
    have e2 : Terms.slack ((n, v, q) :: ts) = (n * 10 ^ 6 * (q + 1) / 2 ^ 53 + 10 / 2 ^ 53) + Terms.slack ts := by simp [Terms.slack]
    rw [e1, e2]
    have a := abs_le.1 b4
    have b := abs_le.1 c3
    rw [abs_le]
    constructor <;> linarith

/-- The microseconds, in one go. -/
theorem timedeltaUs_near (ts : Terms) (hn : ts.Near) (hk : ts.length ≤ 4) :
    0 ≤ timedeltaUs (ts.map fun t => (t.1, t.2.1)) ∧
    |(timedeltaUs (ts.map fun t => (t.1, t.2.1)) : ℚ) - 10 ^ 6 * ts.sum| ≤ ts.slack + 1 / 2 := by
  have hr : (ts.map fun t => (t.1, t.2.1)).reverse = (ts.reverse.map fun t => (t.1, t.2.1)) := by rw [List.map_reverse]
  have hs1 : Terms.sum ts.reverse = Terms.sum ts := by simp [Terms.sum, List.map_reverse, List.sum_reverse]
  have hs2 : Terms.slack ts.reverse = Terms.slack ts := by simp [Terms.slack, List.map_reverse, List.sum_reverse]
  obtain ⟨h1, h2, h3⟩ := fold_near ts.reverse (0, 0) 0 (fun t ht => hn t (by simpa using ht)) (by simp; omega) (by simp) (by simp) (by simp)
  unfold timedeltaUs
  simp only [hr]
  rw [hs1, hs2] at h3
  obtain ⟨r, er⟩ : ∃ r, List.foldl accumUs (0, 0) (ts.reverse.map fun t => (t.1, t.2.1)) = r := ⟨_, rfl⟩
  rw [er] at h1 h2 h3 ⊢
  have hnn : (0 : ℚ) ≤ (r.1 : ℚ) + r.2 := by
    have : (0 : ℚ) ≤ r.1 := by exact_mod_cast h1
    linarith
  refine ⟨roundEven_nonneg hnn, ?_⟩
  have a := abs_le.1 (roundEven_near ((r.1 : ℚ) + r.2))
  have b := abs_le.1 h3
  rw [abs_le]
  push_cast at b
  constructor <;> linarith

end TF
