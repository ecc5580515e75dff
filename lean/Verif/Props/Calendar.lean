import Verif.Spec.Calendar
import Verif.Lemmas.Duration
import Verif.Props.Duration
import Verif.Lemmas.Text
/-! # C130: dates -/
namespace TF.Props
open TF Spec

/-! ## Counting days -/

theorem leap_iff (y : Nat) : isLeap y = true ↔ LeapYear y := by
  simp only [isLeap, LeapYear, Bool.and_eq_true, Bool.or_eq_true, beq_iff_eq, bne_iff_ne, ne_eq]
  omega

theorem yearLength_eq (y : Nat) : yearLength y = 365 + if isLeap y then 1 else 0 := by
  unfold yearLength
  by_cases h : LeapYear y
  · rw [if_pos h, if_pos ((leap_iff y).2 h)]
  · rw [if_neg h, if_neg (fun e => h ((leap_iff y).1 e))]

theorem yearsBefore_succ {y : Nat} (h : y ≠ 0) : yearsBefore (y + 1) = yearsBefore y + yearLength y := by
  unfold yearsBefore
  rw [List.range_succ, List.map_append, List.sum_append]
  simp [h]

theorem daysBeforeYear_succ {y : Nat} (h : y ≠ 0) : daysBeforeYear (y + 1) = daysBeforeYear y + yearLength y := by
  obtain ⟨n, rfl⟩ := Nat.exists_eq_succ_of_ne_zero h
  simp only [Nat.succ_eq_add_one]
  by_cases hl : LeapYear (n + 1)
  · rw [show yearLength (n + 1) = 366 from if_pos hl]
    unfold LeapYear at hl
    unfold daysBeforeYear
    omega
  · rw [show yearLength (n + 1) = 365 from if_neg hl]
    unfold LeapYear at hl
    unfold daysBeforeYear
    omega

theorem daysBeforeYear_eq {y : Nat} (h : 1 ≤ y) : daysBeforeYear y = yearsBefore y := by
  induction y with
  | zero => omega
  | succ y ih =>
    by_cases e : y = 0
    · subst e; rfl
    · rw [daysBeforeYear_succ e, yearsBefore_succ e, ih (by omega)]

theorem month_cases {m : Nat} (h1 : 1 ≤ m) (h2 : m ≤ 12) : m = 1 ∨ m = 2 ∨ m = 3 ∨ m = 4 ∨ m = 5 ∨ m = 6 ∨ m = 7 ∨ m = 8 ∨ m = 9 ∨ m = 10 ∨ m = 11 ∨ m = 12 := by
  omega

theorem monthDays_eq (y : Nat) {m : Nat} (h1 : 1 ≤ m) (h2 : m ≤ 12) : monthDays y m = monthLength y m := by
  have hl := leap_iff y
  rcases month_cases h1 h2 with rfl | rfl | rfl | rfl | rfl | rfl | rfl | rfl | rfl | rfl | rfl | rfl <;> try rfl
  by_cases h : LeapYear y <;> simp [monthDays, monthLength, h, hl]

theorem monthsBefore_succ (y m : Nat) : monthsBefore y (m + 1) = monthsBefore y m + monthLength y m := by
  unfold monthsBefore
  rw [List.range_succ, List.map_append, List.sum_append]
  simp

theorem daysBeforeMonth_eq (y : Nat) {m : Nat} (h1 : 1 ≤ m) (h2 : m ≤ 12) : daysBeforeMonth y m = monthsBefore y m := by
  have hl := leap_iff y
  by_cases h : LeapYear y <;> rcases month_cases h1 h2 with rfl | rfl | rfl | rfl | rfl | rfl | rfl | rfl | rfl | rfl | rfl | rfl <;>
    simp [daysBeforeMonth, monthsBefore_succ, show monthsBefore y 0 = 0 from rfl, monthLength, h, hl]

theorem civilSeconds_eq {c : Civil} (h : RealDay c.year c.month c.day) : civilSeconds c = sinceEpoch c := by
  obtain ⟨h1, h2, h3, h4, h5⟩ := h
  unfold civilSeconds sinceEpoch
  rw [daysBeforeYear_eq h1, daysBeforeMonth_eq _ h2 h3, show dayNumber 1970 1 1 = 719162 by decide +kernel]
  unfold dayNumber
  omega

theorem monthLength_le (y m : Nat) : monthLength y m ≤ 31 := by unfold monthLength; split <;> (try split) <;> omega

/-- A day lies before the end of its year. -/
theorem day_in_year {y m d : Nat} (h : RealDay y m d) : monthsBefore y m + (d - 1) < yearLength y := by
  obtain ⟨h1, h2, h3, h4, h5⟩ := h
  have hl := leap_iff y
  have hy := yearLength_eq y
  by_cases h : LeapYear y <;> rcases month_cases h2 h3 with rfl | rfl | rfl | rfl | rfl | rfl | rfl | rfl | rfl | rfl | rfl | rfl <;>
    simp [hl, h] at hy <;>
    simp [monthsBefore_succ, show monthsBefore y 0 = 0 from rfl, monthLength, h] at h5 ⊢ <;> omega

theorem yearsBefore_mono {a b : Nat} (h0 : a ≠ 0) (h : a < b) : yearsBefore a + yearLength a ≤ yearsBefore b := by
  induction b with
  | zero => omega
  | succ b ih =>
    by_cases e : a = b
    · subst e; rw [yearsBefore_succ h0]; exact Nat.le_refl _
    · have := ih (by omega)
      rw [yearsBefore_succ (by omega)]
      omega

theorem monthsBefore_mono (y : Nat) {a b : Nat} (h : a < b) : monthsBefore y a + monthLength y a ≤ monthsBefore y b := by
  induction b with
  | zero => omega
  | succ b ih =>
    rw [monthsBefore_succ]
    by_cases e : a = b
    · subst e; omega
    · have := ih (by omega); omega

/-- Days in order. -/
theorem dayNumber_lt {y m d y' m' d' : Nat} (h : RealDay y m d) (h' : RealDay y' m' d') :
    dayNumber y m d < dayNumber y' m' d' ↔ y < y' ∨ (y = y' ∧ (m < m' ∨ (m = m' ∧ d < d'))) := by
  have key : ∀ {y m d y' m' d' : Nat}, RealDay y m d → RealDay y' m' d' → (y < y' ∨ (y = y' ∧ (m < m' ∨ (m = m' ∧ d < d')))) →
      dayNumber y m d < dayNumber y' m' d' := by
    intro y m d y' m' d' h h' hlt
    have a := day_in_year h
    obtain ⟨h1, h2, h3, h4, h5⟩ := h
    obtain ⟨g1, g2, g3, g4, g5⟩ := h'
    unfold dayNumber
    rcases hlt with hy | ⟨rfl, hm | ⟨rfl, hd⟩⟩
    · have := yearsBefore_mono (by omega) hy
      omega
    · have := monthsBefore_mono y hm
      omega
    · omega
  constructor
  · intro hlt
    rcases Nat.lt_trichotomy y y' with hy | rfl | hy
    · exact .inl hy
    · rcases Nat.lt_trichotomy m m' with hm | rfl | hm
      · exact .inr ⟨rfl, .inl hm⟩
      · rcases Nat.lt_trichotomy d d' with hd | rfl | hd
        · exact .inr ⟨rfl, .inr ⟨rfl, hd⟩⟩
        · omega
        · have := key h' h (.inr ⟨rfl, .inr ⟨rfl, hd⟩⟩); omega
      · have := key h' h (.inr ⟨rfl, .inl hm⟩); omega
    · have := key h' h (.inl hy); omega
  · exact key h h'

/-- **C130** (one day after the other): the count of days goes up by one from each day to the next, and 1970/1/1 is where it starts. -/
theorem C130_calendar (a b : Nat × Nat × Nat) (ha : RealDay a.1 a.2.1 a.2.2) (hb : RealDay b.1 b.2.1 b.2.2) :
    (dayNumber b.1 b.2.1 b.2.2 = dayNumber a.1 a.2.1 a.2.2 + 1 ↔ NextDay a b) := by
  have fwd : ∀ a b : Nat × Nat × Nat, RealDay a.1 a.2.1 a.2.2 → NextDay a b → dayNumber b.1 b.2.1 b.2.2 = dayNumber a.1 a.2.1 a.2.2 + 1 := by
    rintro ⟨y, m, d⟩ ⟨y', m', d'⟩ ⟨h1, h2, h3, h4, h5⟩ h
    simp only [NextDay] at h ⊢
    simp only at h1 h2 h3 h4 h5
    unfold dayNumber
    rcases h with ⟨rfl, rfl, rfl⟩ | ⟨rfl, rfl, rfl, rfl⟩ | ⟨rfl, rfl, rfl, rfl, rfl⟩
    · omega
    · rw [monthsBefore_succ]; omega
    · rw [yearsBefore_succ (by omega)]
      have hl := leap_iff y
      have hy := yearLength_eq y
      by_cases h : LeapYear y <;> simp [hl, h] at hy <;>
        simp [monthsBefore_succ, show ∀ y, monthsBefore y 0 = 0 from fun _ => rfl, monthLength, h] <;> omega
  constructor
  · intro e
    obtain ⟨c, hc, hn⟩ : ∃ c : Nat × Nat × Nat, RealDay c.1 c.2.1 c.2.2 ∧ NextDay a c := by
      obtain ⟨y, m, d⟩ := a
      obtain ⟨h1, h2, h3, h4, h5⟩ := ha
      simp only at h1 h2 h3 h4 h5
      by_cases e1 : d < monthLength y m
      · exact ⟨(y, m, d + 1), ⟨h1, h2, h3, by simp, by simp; omega⟩, .inl ⟨rfl, rfl, rfl⟩⟩
      · by_cases e2 : m = 12
        · subst e2
          have : monthLength y 12 = 31 := rfl
          exact ⟨(y + 1, 1, 1), ⟨by simp, by simp, by simp, by simp, by simp [monthLength]⟩, .inr (.inr ⟨by simp; omega, rfl, rfl, rfl, rfl⟩)⟩
        · refine ⟨(y, m + 1, 1), ⟨h1, by simp, by simp; omega, by simp, ?_⟩, .inr (.inl ⟨by simp; omega, rfl, rfl, rfl⟩)⟩
          rcases month_cases h2 h3 with rfl | rfl | rfl | rfl | rfl | rfl | rfl | rfl | rfl | rfl | rfl | rfl <;> simp [monthLength] at e2 ⊢
          split <;> omega
    have e' := fwd a c ha hn
    have l1 := dayNumber_lt hb hc
    have l2 := dayNumber_lt hc hb
    have : b = c := by
      obtain ⟨y, m, d⟩ := b
      obtain ⟨y', m', d'⟩ := c
      simp only at *
      have n1 : ¬ dayNumber y m d < dayNumber y' m' d' := by omega
      have n2 : ¬ dayNumber y' m' d' < dayNumber y m d := by omega
      rw [l1] at n1
      rw [l2] at n2
      have : y = y' := by omega
      have : m = m' := by omega
      have : d = d' := by omega
      simp [*]
    exact this ▸ hn
  · exact fwd a b ha

/-! ## Reading a date -/

theorem altMatch_some {a : List (Char → Bool)} {s t r : Str} (h : altMatch a s = some (t, r)) : s = t ++ r ∧ t.length = a.length := by
  induction a generalizing s t r with
  | nil => simp only [altMatch, Option.some.injEq, Prod.mk.injEq] at h; obtain ⟨rfl, rfl⟩ := h; exact ⟨rfl, rfl⟩
  | cons p a ih =>
    cases s with
    | nil => simp [altMatch] at h
    | cons c s =>
      simp only [altMatch] at h
      split at h
      · cases e : altMatch a s with
        | none => rw [e] at h; cases h
        | some x =>
          obtain ⟨t', r'⟩ := x
          rw [e] at h
          simp only [Option.map_some, Option.some.injEq, Prod.mk.injEq] at h
          obtain ⟨rfl, rfl⟩ := h
          obtain ⟨e1, e2⟩ := ih e
          exact ⟨by rw [e1]; rfl, by simp [e2]⟩
      · cases h

theorem altMatch_app {a : List (Char → Bool)} {s : Str} (h : a.length ≤ s.length) (r : Str) :
    altMatch a (s ++ r) = (altMatch a s).map fun x => (x.1, x.2 ++ r) := by
  induction a generalizing s with
  | nil => rfl
  | cons p a ih =>
    cases s with
    | nil => simp at h
    | cons c s =>
      simp only [List.cons_append, altMatch]
      split
      · rw [ih (by simpa using h)]
        cases altMatch a s <;> rfl
      · rfl

theorem altMatch_long {a : List (Char → Bool)} {c : Char} (hc : ∀ p ∈ a, p c = false) {s : Str} (h : s.length < a.length) (r : Str) :
    altMatch a (s ++ c :: r) = none := by
  induction a generalizing s with
  | nil => simp at h
  | cons p a ih =>
    cases s with
    | nil => simp [altMatch, hc p (by simp)]
    | cons x s =>
      simp only [List.cons_append, altMatch]
      split
      · rw [ih (fun q hq => hc q (by simp [hq])) (by simpa using h)]; rfl
      · rfl

theorem altMatch_beyond {a : List (Char → Bool)} {c : Char} (hc : ∀ p ∈ a.tail, p c = false) {s : Str} (hs : s ≠ []) (h : s.length < a.length) (r : Str) :
    altMatch a (s ++ c :: r) = none := by
  cases a with
  | nil => simp at h
  | cons p a =>
    cases s with
    | nil => exact absurd rfl hs
    | cons x s =>
      simp only [List.cons_append, altMatch]
      split
      · rw [altMatch_long (a := a) hc (by simpa using h)]; rfl
      · rfl

/-- A token as a whole is one of the alternatives of a directive. -/
def fullTok (d : Char) (tok : Str) : Bool := (dirAlts d).any fun a => altMatch a tok == some (tok, [])

/-- The first match. -/
def firstMatch (is : List FmtItem) (s : Str) : Option (List (Char × Str) × Str) := (fmtMatches is s).head?

theorem fmtMatches_stop {f : FmtItem} {s : Str} (h : itemMatches f s = []) (is : List FmtItem) : fmtMatches (f :: is) s = [] := by
  simp [fmtMatches, h]

theorem first_dir {d c : Char} {f : FmtItem} {tok : Str} (hn : tok ≠ []) (ht : ∀ x ∈ tok, isDig x = true)
    (hc : ∀ a ∈ dirAlts d, ∀ p ∈ a.tail, p c = false) (hf : ∀ x s, isDig x = true → itemMatches f (x :: s) = []) (is : List FmtItem) (r : Str) :
    firstMatch (.dir d :: f :: is) (tok ++ c :: r) =
      if fullTok d tok then (firstMatch (f :: is) (c :: r)).map fun y => ((d, tok) :: y.1, y.2) else none := by
  unfold firstMatch fullTok
  rw [fmtMatches]
  simp only [itemMatches]
  generalize dirAlts d = L at hc
  induction L with
  | nil => simp
  | cons a L ih =>
    have ih := ih fun a ha => hc a (by simp [ha])
    have hca := hc a (by simp)
    rw [List.any_cons, List.filterMap_cons]
    rcases Nat.lt_or_ge tok.length a.length with hl | hl
    · have hfull : (altMatch a tok == some (tok, [])) = false := by
        rw [beq_eq_false_iff_ne]
        intro e
        have := (altMatch_some e).2
        omega
      rw [altMatch_beyond hca hn hl, hfull]
      simpa using ih
    · rw [altMatch_app hl]
      cases e : altMatch a tok with
      | none => simpa using ih
      | some x =>
        obtain ⟨t, rest⟩ := x
        obtain ⟨e1, e2⟩ := altMatch_some e
        simp only [Option.map_some, List.map_cons, List.flatMap_cons]
        cases rest with
        | nil =>
          rw [List.append_nil] at e1
          subst e1
          rw [List.head?_append, ih]
          simp only [List.nil_append, BEq.rfl, Bool.true_or, if_true, List.head?_map, List.singleton_append]
          cases (fmtMatches (f :: is) (c :: r)).head? with
          | none => simp
          | some y => simp
        | cons x rest =>
          have hx : isDig x = true := ht x (by rw [e1]; simp)
          have hb : (some (t, x :: rest) == some (tok, ([] : Str))) = false := by
            rw [beq_eq_false_iff_ne]
            simp
          rw [hb, List.cons_append, fmtMatches_stop (hf x _ hx)]
          simpa using ih

theorem first_lit (c : Char) (is : List FmtItem) (r : Str) : firstMatch (.lit c :: is) (c :: r) = firstMatch is r := by
  simp [firstMatch, fmtMatches, itemMatches]

theorem first_space {x : Char} (hx : isPySpace x = false) (is : List FmtItem) (r : Str) : firstMatch (.space :: is) (' ' :: x :: r) = firstMatch is (x :: r) := by
  have : spaceRests (' ' :: x :: r) = [x :: r] := by
    simp [spaceRests, hx, show isPySpace ' ' = true from rfl]
  simp [firstMatch, fmtMatches, itemMatches, this]

theorem first_half {x : Str} (hx : HalfDay x) (is : List FmtItem) (r : Str) :
    firstMatch (.dir 'p' :: is) (x ++ r) = (firstMatch is r).map fun y => (('p', x) :: y.1, y.2) := by
  simp only [HalfDay, List.map_cons, List.map_nil, List.mem_cons, List.not_mem_nil, or_false] at hx
  rcases hx with rfl | rfl | rfl | rfl | rfl | rfl | rfl | rfl <;>
    simp [firstMatch, fmtMatches, itemMatches, dirAlts, altMatch]

/-- A match of the whole text. -/
def whole : Option (List (Char × Str) × Str) → Option (List (Char × Str))
  | some (vs, []) => some vs
  | _ => none

theorem whole_map (o : Option (List (Char × Str) × Str)) (vs : List (Char × Str)) :
    whole (o.map fun y => (vs ++ y.1, y.2)) = (whole o).map (vs ++ ·) := by
  rcases o with _ | ⟨ws, _ | ⟨c, r⟩⟩ <;> rfl

def tens : Str := "0123456789".toList

theorem mem_tens {c : Char} (h : isDig c = true) : c ∈ tens := by
  have h' : 48 ≤ c.toNat ∧ c.toNat ≤ 57 := by simpa [isDig] using h
  have : c = Char.ofNat c.toNat := by simp
  rw [this]
  rcases (by omega : c.toNat = 48 ∨ c.toNat = 49 ∨ c.toNat = 50 ∨ c.toNat = 51 ∨ c.toNat = 52 ∨ c.toNat = 53 ∨ c.toNat = 54 ∨ c.toNat = 55 ∨
    c.toNat = 56 ∨ c.toNat = 57) with e | e | e | e | e | e | e | e | e | e <;> rw [e] <;> decide

theorem by_digits {P : Str → Prop} (h1 : ∀ a ∈ tens, P [a]) (h2 : ∀ a ∈ tens, ∀ b ∈ tens, P [a, b]) (h3 : ∀ s, 3 ≤ s.length → P s) {s : Str} (hs : Digits s) : P s := by
  obtain ⟨hn, hd⟩ := (Digits_iff s).1 hs
  match s, hn, hd with
  | [a], _, hd => exact h1 a (mem_tens (hd a (by simp)))
  | [a, b], _, hd => exact h2 a (mem_tens (hd a (by simp))) b (mem_tens (hd b (by simp)))
  | a :: b :: c :: s, _, _ => exact h3 _ (by simp)

theorem full_short {d : Char} (hd : ∀ a ∈ dirAlts d, a.length ≤ 2) {s : Str} (hs : 3 ≤ s.length) : fullTok d s = false := by
  unfold fullTok
  rw [List.any_eq_false]
  intro a ha e
  have e := eq_of_beq e
  have := (altMatch_some e).2
  have := hd a ha
  omega

theorem full_range {d : Char} {lo hi : Nat} (hd : ∀ a ∈ dirAlts d, a.length ≤ 2)
    (h1 : ∀ a ∈ tens, fullTok d [a] = decide (lo ≤ digVal [a] ∧ digVal [a] ≤ hi))
    (h2 : ∀ a ∈ tens, ∀ b ∈ tens, fullTok d [a, b] = decide (lo ≤ digVal [a, b] ∧ digVal [a, b] ≤ hi)) {s : Str} (hs : Digits s) :
    fullTok d s = true ↔ s.length ≤ 2 ∧ lo ≤ digits s ∧ digits s ≤ hi := by
  rw [digits_eq]
  refine by_digits (P := fun s => fullTok d s = true ↔ s.length ≤ 2 ∧ lo ≤ digVal s ∧ digVal s ≤ hi) (fun a ha => ?_) (fun a ha b hb => ?_) (fun s hs => ?_) hs
  · rw [h1 a ha]; simp
  · rw [h2 a ha b hb]; simp
  · rw [full_short hd hs]; simp; omega

theorem full_m {s : Str} (hs : Digits s) : fullTok 'm' s = true ↔ s.length ≤ 2 ∧ 1 ≤ digits s ∧ digits s ≤ 12 :=
  full_range (by decide) (by decide) (by decide +kernel) hs

theorem full_d {s : Str} (hs : Digits s) : fullTok 'd' s = true ↔ s.length ≤ 2 ∧ 1 ≤ digits s ∧ digits s ≤ 31 :=
  full_range (by decide) (by decide) (by decide +kernel) hs

theorem full_H {s : Str} (hs : Digits s) : fullTok 'H' s = true ↔ s.length ≤ 2 ∧ 0 ≤ digits s ∧ digits s ≤ 23 :=
  full_range (by decide) (by decide) (by decide +kernel) hs

theorem full_I {s : Str} (hs : Digits s) : fullTok 'I' s = true ↔ s.length ≤ 2 ∧ 1 ≤ digits s ∧ digits s ≤ 12 :=
  full_range (by decide) (by decide) (by decide +kernel) hs

theorem full_M {s : Str} (hs : Digits s) : fullTok 'M' s = true ↔ s.length ≤ 2 ∧ 0 ≤ digits s ∧ digits s ≤ 59 :=
  full_range (by decide) (by decide) (by decide +kernel) hs

theorem full_S {s : Str} (hs : Digits s) : fullTok 'S' s = true ↔ s.length ≤ 2 ∧ 0 ≤ digits s ∧ digits s ≤ 61 :=
  full_range (by decide) (by decide) (by decide +kernel) hs

theorem asciiDigit_digit {c : Char} (h : isDig c = true) : asciiDigit c = c := by
  have h' : 48 ≤ c.toNat ∧ c.toNat ≤ 57 := by simpa [isDig] using h
  unfold asciiDigit
  rw [if_pos (by omega)]

theorem anyDigit_digit {c : Char} (h : isDig c = true) : anyDigit c = true := by
  unfold anyDigit
  rw [asciiDigit_digit h, h]

theorem full_y {s : Str} (hs : Digits s) : fullTok 'y' s = true ↔ s.length = 2 := by
  obtain ⟨hn, hd⟩ := (Digits_iff s).1 hs
  match s, hn, hd with
  | [a], _, hd => simp [fullTok, dirAlts, altMatch]
  | [a, b], _, hd => simp [fullTok, dirAlts, altMatch, anyDigit_digit (hd a (by simp)), anyDigit_digit (hd b (by simp))]
  | a :: b :: c :: s, _, _ => rw [full_short (by decide) (by simp)]; simp

theorem full_Y {s : Str} (hs : FourDigits s) : fullTok 'Y' s = true := by
  obtain ⟨hn, hd⟩ := (Digits_iff s).1 hs.1
  have hl := hs.2
  match s, hl, hd with
  | [a, b, c, d], _, hd =>
    simp [fullTok, dirAlts, altMatch, anyDigit_digit (hd a (by simp)), anyDigit_digit (hd b (by simp)), anyDigit_digit (hd c (by simp)), anyDigit_digit (hd d (by simp))]

theorem whole_last {d : Char} (hd : ∀ a ∈ dirAlts d, a.length ≤ 2)
    (h1 : ∀ a ∈ tens, whole (firstMatch [.dir d] [a]) = if fullTok d [a] then some [(d, [a])] else none)
    (h2 : ∀ a ∈ tens, ∀ b ∈ tens, whole (firstMatch [.dir d] [a, b]) = if fullTok d [a, b] then some [(d, [a, b])] else none) {s : Str} (hs : Digits s) :
    whole (firstMatch [.dir d] s) = if fullTok d s then some [(d, s)] else none := by
  refine by_digits (P := fun s => whole (firstMatch [.dir d] s) = if fullTok d s then some [(d, s)] else none) h1 h2 (fun s hs => ?_) hs
  rw [full_short hd hs]
  cases e : firstMatch [.dir d] s with
  | none => rfl
  | some x =>
    obtain ⟨vs, r⟩ := x
    have hm := List.mem_of_head? e
    simp only [fmtMatches, itemMatches, List.mem_flatMap, List.mem_map, List.mem_filterMap, List.mem_singleton] at hm
    obtain ⟨x, ⟨y, ⟨a, ha, hy⟩, rfl⟩, z, rfl, hz⟩ := hm
    obtain ⟨t, r'⟩ := y
    obtain ⟨e1, e2⟩ := altMatch_some hy
    simp only [Prod.mk.injEq] at hz
    obtain ⟨-, rfl⟩ := hz
    have := hd a ha
    have hl : s.length = t.length + r'.length := by rw [e1, List.length_append]
    cases r' with
    | nil => simp at hl; omega
    | cons c r => rfl

theorem whole_M {s : Str} (hs : Digits s) : whole (firstMatch [.dir 'M'] s) = if fullTok 'M' s then some [('M', s)] else none :=
  whole_last (by decide) (by decide) (by decide +kernel) hs

theorem whole_S {s : Str} (hs : Digits s) : whole (firstMatch [.dir 'S'] s) = if fullTok 'S' s then some [('S', s)] else none :=
  whole_last (by decide) (by decide) (by decide +kernel) hs

theorem stop_lit {c : Char} (hc : isDig c = false) (x : Char) (s : Str) (hx : isDig x = true) : itemMatches (.lit c) (x :: s) = [] := by
  have : x ≠ c := fun e => by rw [e, hc] at hx; cases hx
  simp [itemMatches, this]

theorem digit_space {x : Char} (hx : isDig x = true) : isPySpace x = false := (written_char (.inl hx)).1

theorem stop_space (x : Char) (s : Str) (hx : isDig x = true) : itemMatches .space (x :: s) = [] := by
  simp [itemMatches, spaceRests, digit_space hx]

theorem stop_p (x : Char) (s : Str) (hx : isDig x = true) : itemMatches (.dir 'p') (x :: s) = [] := by
  have : ∀ x ∈ tens, (x == 'a' || x == 'A') = false ∧ (x == 'p' || x == 'P') = false := by decide
  obtain ⟨h1, h2⟩ := this x (mem_tens hx)
  simp [itemMatches, dirAlts, altMatch, h1, h2]

theorem first_day {da db dc : Char} {a b c : Str} (ha : Digits a) (hb : Digits b) (hc : Digits c)
    (h1 : ∀ l ∈ dirAlts da, ∀ p ∈ l.tail, p '/' = false) (h2 : ∀ l ∈ dirAlts db, ∀ p ∈ l.tail, p '/' = false)
    (h3 : ∀ l ∈ dirAlts dc, ∀ p ∈ l.tail, p ' ' = false) {x : Char} (hx : isDig x = true) (is : List FmtItem) (r : Str) :
    firstMatch (.dir da :: .lit '/' :: .dir db :: .lit '/' :: .dir dc :: .space :: is) (a ++ '/' :: (b ++ '/' :: (c ++ ' ' :: x :: r))) =
      if fullTok da a = true ∧ fullTok db b = true ∧ fullTok dc c = true then
        (firstMatch is (x :: r)).map fun y => ([(da, a), (db, b), (dc, c)] ++ y.1, y.2) else none := by
  have ha := (Digits_iff a).1 ha
  have hb := (Digits_iff b).1 hb
  have hc := (Digits_iff c).1 hc
  rw [first_dir ha.1 ha.2 h1 (stop_lit (by decide)), first_lit, first_dir hb.1 hb.2 h2 (stop_lit (by decide)), first_lit,
    first_dir hc.1 hc.2 h3 stop_space, first_space (digit_space hx)]
  by_cases e1 : fullTok da a = true <;> by_cases e2 : fullTok db b = true <;> by_cases e3 : fullTok dc c = true <;> simp [e1, e2, e3]
  rfl

/-- The values of the parts of a day. -/
def dayVals (year : Str) : DayText → List (Char × Str)
  | .ymd y m d => [('Y', y), ('m', m), ('d', d)]
  | .dmy d m y => [('d', d), ('m', m), ('Y', y)]
  | .shortYear y m d => [('y', y), ('m', m), ('d', d)]
  | .thisYear m d => [('Y', year), ('m', m), ('d', d)]

/-- All the parts are taken as they are. -/
def allFull (vs : List (Char × Str)) : Bool := vs.all fun v => fullTok v.1 v.2

theorem allFull_app (a b : List (Char × Str)) : allFull (a ++ b) = (allFull a && allFull b) := List.all_append ..

theorem whole_if {c : Prop} [Decidable c] (o : Option (List (Char × Str) × Str)) :
    whole (if c then o else none) = if c then whole o else none := by split <;> rfl

theorem whole_day {year : Str} (hy : FourDigits year) {d : DayText} (hd : d.Good) {x : Char} (hx : isDig x = true) (r tf : Str) :
    whole (firstMatch (fmtItems ((d.meaning year).2 ++ ' ' :: tf)) ((d.meaning year).1 ++ ' ' :: x :: r)) =
      if allFull (dayVals year d) then (whole (firstMatch (fmtItems tf) (x :: r))).map (dayVals year d ++ ·) else none := by
  cases d with
  | ymd y m d =>
    obtain ⟨h1, h2, h3⟩ := hd
    have := first_day (da := 'Y') (db := 'm') (dc := 'd') h1.1 h2.1 h3.1 (by decide) (by decide) (by decide) hx (fmtItems tf) r
    show whole (firstMatch (.dir 'Y' :: .lit '/' :: .dir 'm' :: .lit '/' :: .dir 'd' :: .space :: fmtItems tf) ((y ++ '/' :: (m ++ '/' :: d)) ++ ' ' :: x :: r)) = _
    rw [List.append_assoc, List.cons_append, List.append_assoc, List.cons_append, this, whole_if, whole_map]
    simp [allFull, dayVals]
  | dmy d m y =>
    obtain ⟨h1, h2, h3⟩ := hd
    have := first_day (da := 'd') (db := 'm') (dc := 'Y') h1.1 h2.1 h3.1 (by decide) (by decide) (by decide) hx (fmtItems tf) r
    show whole (firstMatch (.dir 'd' :: .lit '/' :: .dir 'm' :: .lit '/' :: .dir 'Y' :: .space :: fmtItems tf) ((d ++ '/' :: (m ++ '/' :: y)) ++ ' ' :: x :: r)) = _
    rw [List.append_assoc, List.cons_append, List.append_assoc, List.cons_append, this, whole_if, whole_map]
    simp [allFull, dayVals]
  | shortYear y m d =>
    obtain ⟨h1, h2, h3⟩ := hd
    have := first_day (da := 'y') (db := 'm') (dc := 'd') h1.1 h2.1 h3.1 (by decide) (by decide) (by decide) hx (fmtItems tf) r
    show whole (firstMatch (.dir 'y' :: .lit '/' :: .dir 'm' :: .lit '/' :: .dir 'd' :: .space :: fmtItems tf) ((y ++ '/' :: (m ++ '/' :: d)) ++ ' ' :: x :: r)) = _
    rw [List.append_assoc, List.cons_append, List.append_assoc, List.cons_append, this, whole_if, whole_map]
    simp [allFull, dayVals]
  | thisYear m d =>
    obtain ⟨h2, h3⟩ := hd
    have := first_day (da := 'Y') (db := 'm') (dc := 'd') hy.1 h2.1 h3.1 (by decide) (by decide) (by decide) hx (fmtItems tf) r
    show whole (firstMatch (.dir 'Y' :: .lit '/' :: .dir 'm' :: .lit '/' :: .dir 'd' :: .space :: fmtItems tf) ((year ++ '/' :: (m ++ '/' :: d)) ++ ' ' :: x :: r)) = _
    rw [List.append_assoc, List.cons_append, List.append_assoc, List.cons_append, this, whole_if, whole_map]
    simp [allFull, dayVals]

/-- The values of the parts of a time. -/
def clockVals : ClockText → List (Char × Str)
  | .midnight => [('H', ['0', '0']), ('M', ['0', '0']), ('S', ['0', '0'])]
  | .hm h m => [('H', h), ('M', m)]
  | .hms h m s => [('H', h), ('M', m), ('S', s)]
  | .halfHm h x m => [('I', h), ('p', x), ('M', m)]
  | .halfHms h x m s => [('I', h), ('p', x), ('M', m), ('S', s)]

theorem half_full {x : Str} (hx : HalfDay x) : fullTok 'p' x = true := by
  simp only [HalfDay, List.map_cons, List.map_nil, List.mem_cons, List.not_mem_nil, or_false] at hx
  rcases hx with rfl | rfl | rfl | rfl | rfl | rfl | rfl | rfl <;> decide

theorem half_head {x : Str} (hx : HalfDay x) : ∃ c s, x = c :: s ∧ ∀ l ∈ dirAlts 'I', ∀ p ∈ l.tail, p c = false := by
  simp only [HalfDay, List.map_cons, List.map_nil, List.mem_cons, List.not_mem_nil, or_false] at hx
  rcases hx with rfl | rfl | rfl | rfl | rfl | rfl | rfl | rfl <;> exact ⟨_, _, rfl, by decide⟩

theorem whole_cons (o : Option (List (Char × Str) × Str)) (v : Char × Str) :
    whole (o.map fun y => (v :: y.1, y.2)) = (whole o).map (v :: ·) := whole_map o [v]

theorem first_two {da db : Char} {a b : Str} (ha : Digits a) (hb : whole (firstMatch [.dir db] b) = if fullTok db b then some [(db, b)] else none)
    (h1 : ∀ l ∈ dirAlts da, ∀ p ∈ l.tail, p ':' = false) :
    whole (firstMatch [.dir da, .lit ':', .dir db] (a ++ ':' :: b)) = if allFull [(da, a), (db, b)] then some [(da, a), (db, b)] else none := by
  have ha := (Digits_iff a).1 ha
  rw [first_dir ha.1 ha.2 h1 (stop_lit (by decide)), first_lit, whole_if, whole_cons, hb]
  by_cases e1 : fullTok da a = true <;> by_cases e2 : fullTok db b = true <;> simp [e1, e2, allFull]

theorem first_three {da : Char} {a b c : Str} (ha : Digits a) (hb : Digits b) (hc : Digits c)
    (h1 : ∀ l ∈ dirAlts da, ∀ p ∈ l.tail, p ':' = false) :
    whole (firstMatch [.dir da, .lit ':', .dir 'M', .lit ':', .dir 'S'] (a ++ ':' :: (b ++ ':' :: c))) =
      if allFull [(da, a), ('M', b), ('S', c)] then some [(da, a), ('M', b), ('S', c)] else none := by
  have ha := (Digits_iff a).1 ha
  rw [first_dir ha.1 ha.2 h1 (stop_lit (by decide)), first_lit, whole_if, whole_cons, first_two hb (whole_S hc) (by decide)]
  by_cases e1 : fullTok da a = true <;> by_cases e2 : allFull [('M', b), ('S', c)] = true <;>
    simp only [allFull, List.all_cons, List.all_nil, Bool.and_true, Bool.and_eq_true] at e2 <;> simp [e1, e2, allFull]

theorem first_half' {h x : Str} (hh : Digits h) (hx : HalfDay x) (is : List FmtItem) (r : Str) :
    whole (firstMatch (.dir 'I' :: .dir 'p' :: is) (h ++ (x ++ r))) =
      if fullTok 'I' h then (whole (firstMatch is r)).map ([('I', h), ('p', x)] ++ ·) else none := by
  have hh := (Digits_iff h).1 hh
  obtain ⟨c, s, hcs, hc⟩ := half_head hx
  have e : firstMatch (.dir 'I' :: .dir 'p' :: is) (h ++ (x ++ r)) =
      if fullTok 'I' h then (firstMatch (.dir 'p' :: is) (x ++ r)).map fun y => (('I', h) :: y.1, y.2) else none := by
    rw [hcs]
    exact first_dir hh.1 hh.2 hc stop_p _ _
  rw [e, first_half hx, whole_if, whole_cons, whole_cons]
  split <;> simp [Function.comp_def]

theorem whole_clock {t : ClockText} (ht : t.Good) :
    whole (firstMatch (fmtItems t.meaning.2) t.meaning.1) = if allFull (clockVals t) then some (clockVals t) else none := by
  cases t with
  | midnight => decide
  | hm h m => exact first_two ht.1 (whole_M ht.2) (by decide)
  | hms h m s => exact first_three ht.1 ht.2.1 ht.2.2 (by decide)
  | halfHm h x m =>
    refine (first_half' ht.1 ht.2.1 [.lit ':', .dir 'M'] (':' :: m)).trans ?_
    rw [first_lit, whole_M ht.2.2]
    by_cases e1 : fullTok 'I' h = true <;> by_cases e2 : fullTok 'M' m = true <;> simp [e1, e2, allFull, clockVals, half_full ht.2.1]
  | halfHms h x m s =>
    refine (first_half' ht.1 ht.2.1 [.lit ':', .dir 'M', .lit ':', .dir 'S'] (':' :: (m ++ ':' :: s))).trans ?_
    rw [first_lit, first_two ht.2.2.1 (whole_S ht.2.2.2) (by decide)]
    by_cases e1 : fullTok 'I' h = true <;> by_cases e2 : fullTok 'M' m = true <;> by_cases e3 : fullTok 'S' s = true <;>
      simp [e1, e2, e3, allFull, clockVals, half_full ht.2.1]

theorem clock_head {t : ClockText} (ht : t.Good) : ∃ x r, t.meaning.1 = x :: r ∧ isDig x = true := by
  cases t with
  | midnight => exact ⟨_, _, rfl, by decide⟩
  | hm h m => exact day_head ht.1 _
  | hms h m s => exact day_head ht.1 _
  | halfHm h x m => exact day_head ht.1 _
  | halfHms h x m s => exact day_head ht.1 _

/-- What is read from a day and a time. -/
theorem whole_date {year : Str} (hy : FourDigits year) {d : DayText} (hd : d.Good) {t : ClockText} (ht : t.Good) :
    whole (firstMatch (fmtItems ((d.meaning year).2 ++ ' ' :: t.meaning.2)) ((d.meaning year).1 ++ ' ' :: t.meaning.1)) =
      if allFull (dayVals year d) = true ∧ allFull (clockVals t) = true then some (dayVals year d ++ clockVals t) else none := by
  have hc := whole_clock ht
  obtain ⟨x, r, e, hx⟩ := clock_head ht
  rw [e] at hc ⊢
  rw [whole_day hy hd hx, hc]
  by_cases e1 : allFull (dayVals year d) = true <;> by_cases e2 : allFull (clockVals t) = true <;> simp [e1, e2]

theorem strptime_eq (s f : Str) : strptime s f = match whole (firstMatch (fmtItems f) s) with
    | some vs => if (civilOf vs).year ≠ 0 ∧ 1 ≤ (civilOf vs).month ∧ (civilOf vs).month ≤ 12 ∧ 1 ≤ (civilOf vs).day ∧
        (civilOf vs).day ≤ monthDays (civilOf vs).year (civilOf vs).month then .ok (civilOf vs) else .error .valueError
    | none => .error .valueError := by
  unfold strptime firstMatch
  rcases (fmtMatches (fmtItems f) s).head? with _ | ⟨vs, _ | ⟨c, r⟩⟩ <;> rfl

theorem digVal_ascii {s : Str} (h : ∀ c ∈ s, isDig c = true) : digVal (s.map asciiDigit) = digits s := by
  rw [digits_eq]
  congr 1
  conv => rhs; rw [← List.map_id s]
  exact List.map_congr_left fun c hc => asciiDigit_digit (h c hc)

/-- What the values stand for. -/
theorem civilOf_year_Y {vs : List (Char × Str)} {y : Str} (h : vs.lookup 'Y' = some y) (hd : ∀ c ∈ y, isDig c = true) : (civilOf vs).year = digits y := by
  simp [civilOf, dirVal, h, digVal_ascii hd]

theorem civilOf_year_y {vs : List (Char × Str)} {y : Str} (h0 : vs.lookup 'Y' = none) (h : vs.lookup 'y' = some y) (hd : ∀ c ∈ y, isDig c = true) :
    (civilOf vs).year = centuryOf (digits y) := by
  simp [civilOf, dirVal, h0, h, digVal_ascii hd]

theorem civilOf_month {vs : List (Char × Str)} {m : Str} (h : vs.lookup 'm' = some m) (hd : ∀ c ∈ m, isDig c = true) : (civilOf vs).month = digits m := by
  simp [civilOf, dirVal, h, digVal_ascii hd]

theorem civilOf_day {vs : List (Char × Str)} {m : Str} (h : vs.lookup 'd' = some m) (hd : ∀ c ∈ m, isDig c = true) : (civilOf vs).day = digits m := by
  simp [civilOf, dirVal, h, digVal_ascii hd]

theorem civilOf_hour {vs : List (Char × Str)} {m : Str} (h0 : vs.lookup 'I' = none) (h : vs.lookup 'H' = some m) (hd : ∀ c ∈ m, isDig c = true) :
    (civilOf vs).hour = digits m := by
  simp [civilOf, dirVal, h0, h, digVal_ascii hd]

theorem civilOf_half {vs : List (Char × Str)} {m x : Str} (h : vs.lookup 'I' = some m) (hx : vs.lookup 'p' = some x) (hd : ∀ c ∈ m, isDig c = true) :
    (civilOf vs).hour = halfHour (digits m) x := by
  simp [civilOf, dirVal, h, hx, digVal_ascii hd]

theorem civilOf_minute {vs : List (Char × Str)} {m : Str} (h : vs.lookup 'M' = some m) (hd : ∀ c ∈ m, isDig c = true) : (civilOf vs).minute = digits m := by
  simp [civilOf, dirVal, h, digVal_ascii hd]

theorem civilOf_second {vs : List (Char × Str)} {m : Str} (h : vs.lookup 'S' = some m) (hd : ∀ c ∈ m, isDig c = true) : (civilOf vs).second = digits m := by
  simp [civilOf, dirVal, h, digVal_ascii hd]

theorem civilOf_no_second {vs : List (Char × Str)} (h : vs.lookup 'S' = none) : (civilOf vs).second = 0 := by
  simp [civilOf, dirVal, h]

theorem lookup_app {vs ws : List (Char × Str)} {c : Char} : (vs ++ ws).lookup c = (vs.lookup c).or (ws.lookup c) := by
  induction vs with
  | nil => simp
  | cons v vs ih =>
    obtain ⟨d, s⟩ := v
    by_cases e : c = d
    · simp [e]
    · have : (c == d) = false := by simp [e]
      simp [List.lookup_cons, this, ih]

theorem dig {s : Str} (h : Digits s) : ∀ c ∈ s, isDig c = true := ((Digits_iff s).1 h).2

theorem clock_no_day (t : ClockText) : (clockVals t).lookup 'Y' = none ∧ (clockVals t).lookup 'y' = none := by
  cases t <;> exact ⟨rfl, rfl⟩

theorem day_no_clock (y : Str) (d : DayText) : ∀ c ∈ "HIpMS".toList, (dayVals y d).lookup c = none := by
  cases d <;> simp [dayVals]

theorem century_iff {n y : Nat} (h : n ≤ 99) : y = centuryOf n ↔ 1969 ≤ y ∧ y ≤ 2068 ∧ y % 100 = n := by
  unfold centuryOf
  split <;> omega

theorem digits_two {s : Str} (h : Digits s) (hl : s.length = 2) : digits s ≤ 99 := by
  obtain ⟨hn, hd⟩ := (Digits_iff s).1 h
  rw [digits_eq]
  have : ∀ a ∈ tens, ∀ b ∈ tens, digVal [a, b] ≤ 99 := by decide
  match s, hl, hd with
  | [a, b], _, hd => exact this a (mem_tens (hd a (by simp))) b (mem_tens (hd b (by simp)))

/-- The day that is read is the day that is meant. -/
theorem day_iff {year : Str} {n : Nat} (hn : digits year = n) (hy : FourDigits year) {d : DayText} (hd : d.Good) (ws : List (Char × Str)) (c : Civil)
    (h0 : ws.lookup 'Y' = none ∧ ws.lookup 'y' = none) (hr : RealDay c.year c.month c.day) :
    d.Is n c ↔ allFull (dayVals year d) = true ∧ c.year = (civilOf (dayVals year d ++ ws)).year ∧ c.month = (civilOf (dayVals year d ++ ws)).month ∧
      c.day = (civilOf (dayVals year d ++ ws)).day := by
  have hm := monthLength_le c.year c.month
  obtain ⟨r1, r2, r3, r4, r5⟩ := hr
  cases d with
  | ymd y m d =>
    obtain ⟨h1, h2, h3⟩ := hd
    rw [civilOf_year_Y (y := y) rfl (dig h1.1), civilOf_month (m := m) rfl (dig h2.1),
      civilOf_day (m := d) rfl (dig h3.1)]
    simp only [DayText.Is, dayVals, allFull, List.all_cons, List.all_nil, Bool.and_true, Bool.and_eq_true, full_Y h1, full_m h2.1, full_d h3.1]
    have := h2.2
    have := h3.2
    grind
  | dmy d m y =>
    obtain ⟨h3, h2, h1⟩ := hd
    rw [civilOf_year_Y (y := y) rfl (dig h1.1), civilOf_month (m := m) rfl (dig h2.1),
      civilOf_day (m := d) rfl (dig h3.1)]
    simp only [DayText.Is, dayVals, allFull, List.all_cons, List.all_nil, Bool.and_true, Bool.and_eq_true, full_Y h1, full_m h2.1, full_d h3.1]
    have := h2.2
    have := h3.2
    grind
  | shortYear y m d =>
    obtain ⟨h1, h2, h3⟩ := hd
    rw [civilOf_year_y (vs := dayVals year (.shortYear y m d) ++ ws) (y := y) h0.1 rfl (dig h1.1), civilOf_month (m := m) rfl (dig h2.1),
      civilOf_day (m := d) rfl (dig h3.1)]
    simp only [DayText.Is, dayVals, allFull, List.all_cons, List.all_nil, Bool.and_true, Bool.and_eq_true, full_y h1.1, full_m h2.1, full_d h3.1]
    have := h2.2
    have := h3.2
    by_cases hl : y.length = 2
    · rw [century_iff (digits_two h1.1 hl)]
      grind
    · simp [hl]
  | thisYear m d =>
    obtain ⟨h2, h3⟩ := hd
    rw [civilOf_year_Y (y := year) rfl (dig hy.1), civilOf_month (m := m) rfl (dig h2.1),
      civilOf_day (m := d) rfl (dig h3.1)]
    simp only [DayText.Is, dayVals, allFull, List.all_cons, List.all_nil, Bool.and_true, Bool.and_eq_true, full_Y hy, full_m h2.1, full_d h3.1]
    have := h2.2
    have := h3.2
    grind

theorem half_iff {h : Nat} {x : Str} (hx : HalfDay x) (n : Nat) : HourOf h x n ↔ 1 ≤ h ∧ h ≤ 12 ∧ n = halfHour h x := by
  have hl : x.map Char.toLower = ['a', 'm'] ∨ x.map Char.toLower = ['p', 'm'] := by
    revert x
    unfold HalfDay
    decide
  unfold HourOf halfHour
  rcases hl with e | e <;> rw [e] <;> simp <;> grind

theorem clock_iff {vs : List (Char × Str)} (hv : ∀ c ∈ "HIpMS".toList, vs.lookup c = none) {t : ClockText} (ht : t.Good) (c : Civil)
    (hr : c.hour < 24 ∧ c.minute < 60 ∧ c.second < 62) :
    t.Is c ↔ allFull (clockVals t) = true ∧ c.hour = (civilOf (vs ++ clockVals t)).hour ∧ c.minute = (civilOf (vs ++ clockVals t)).minute ∧
      c.second = (civilOf (vs ++ clockVals t)).second := by
  have hH := hv 'H' (by decide)
  have hI := hv 'I' (by decide)
  have hp := hv 'p' (by decide)
  have hM := hv 'M' (by decide)
  have hS := hv 'S' (by decide)
  cases t with
  | midnight =>
    rw [civilOf_hour (m := ['0', '0']) (by rw [lookup_app, hI]; rfl) (by rw [lookup_app, hH]; rfl) (by decide),
      civilOf_minute (m := ['0', '0']) (by rw [lookup_app, hM]; rfl) (by decide),
      civilOf_second (m := ['0', '0']) (by rw [lookup_app, hS]; rfl) (by decide),
      show allFull (clockVals .midnight) = true by decide, show digits ['0', '0'] = 0 by decide]
    simp [ClockText.Is]
  | hm h m =>
    obtain ⟨h1, h2⟩ := ht
    rw [civilOf_hour (m := h) (by rw [lookup_app, hI]; rfl) (by rw [lookup_app, hH]; rfl) (dig h1),
      civilOf_minute (m := m) (by rw [lookup_app, hM]; rfl) (dig h2),
      civilOf_no_second (by rw [lookup_app, hS]; rfl)]
    simp only [ClockText.Is, clockVals, allFull, List.all_cons, List.all_nil, Bool.and_true, Bool.and_eq_true, full_H h1, full_M h2]
    grind
  | hms h m s =>
    obtain ⟨h1, h2, h3⟩ := ht
    rw [civilOf_hour (m := h) (by rw [lookup_app, hI]; rfl) (by rw [lookup_app, hH]; rfl) (dig h1),
      civilOf_minute (m := m) (by rw [lookup_app, hM]; rfl) (dig h2),
      civilOf_second (m := s) (by rw [lookup_app, hS]; rfl) (dig h3)]
    simp only [ClockText.Is, clockVals, allFull, List.all_cons, List.all_nil, Bool.and_true, Bool.and_eq_true, full_H h1, full_M h2, full_S h3]
    grind
  | halfHm h x m =>
    obtain ⟨h1, hx, h2⟩ := ht
    rw [civilOf_half (m := h) (x := x) (by rw [lookup_app, hI]; rfl) (by rw [lookup_app, hp]; rfl) (dig h1),
      civilOf_minute (m := m) (by rw [lookup_app, hM]; rfl) (dig h2),
      civilOf_no_second (by rw [lookup_app, hS]; rfl)]
    simp only [ClockText.Is, clockVals, allFull, List.all_cons, List.all_nil, Bool.and_true, Bool.and_eq_true, full_I h1, full_M h2, half_full hx, half_iff hx]
    grind
  | halfHms h x m s =>
    obtain ⟨h1, hx, h2, h3⟩ := ht
    rw [civilOf_half (m := h) (x := x) (by rw [lookup_app, hI]; rfl) (by rw [lookup_app, hp]; rfl) (dig h1),
      civilOf_minute (m := m) (by rw [lookup_app, hM]; rfl) (dig h2),
      civilOf_second (m := s) (by rw [lookup_app, hS]; rfl) (dig h3)]
    simp only [ClockText.Is, clockVals, allFull, List.all_cons, List.all_nil, Bool.and_true, Bool.and_eq_true, full_I h1, full_M h2, full_S h3, half_full hx, half_iff hx]
    grind


/-! ## The day of a timestamp -/

theorem find_range {N y : Nat} {p : Nat → Bool} (h : (List.range N).reverse.find? p = some y) :
    p y = true ∧ ∀ z, y < z → z < N → p z = false := by
  induction N with
  | zero => simp at h
  | succ N ih =>
    rw [List.range_succ, List.reverse_append, List.reverse_singleton, List.singleton_append, List.find?_cons] at h
    cases e : p N with
    | true =>
      rw [e] at h
      simp only [Option.some.injEq] at h
      subst h
      exact ⟨e, fun z h1 h2 => by omega⟩
    | false =>
      rw [e] at h
      obtain ⟨h1, h2⟩ := ih h
      refine ⟨h1, fun z h3 h4 => ?_⟩
      by_cases e' : z = N
      · rw [e', e]
      · exact h2 z h3 (by omega)

theorem daysBeforeYear_ge (y : Nat) : 365 * (y - 1) ≤ daysBeforeYear y := by
  unfold daysBeforeYear
  omega

theorem yearOfDay_spec (n : Nat) : 1 ≤ yearOfDay n ∧ daysBeforeYear (yearOfDay n) ≤ n ∧ n < daysBeforeYear (yearOfDay n + 1) := by
  unfold yearOfDay
  cases e : (List.range (n / 365 + 2)).reverse.find? (fun y => decide (1 ≤ y ∧ daysBeforeYear y ≤ n)) with
  | none =>
    rw [List.find?_eq_none] at e
    exact absurd (by simp [daysBeforeYear] : decide (1 ≤ 1 ∧ daysBeforeYear 1 ≤ n) = true) (e 1 (by simp))
  | some y =>
    obtain ⟨h1, h2⟩ := find_range e
    simp only [decide_eq_true_eq] at h1
    refine ⟨h1.1, h1.2, ?_⟩
    simp only [Option.getD_some]
    by_cases hl : y + 1 < n / 365 + 2
    · have := h2 (y + 1) (by omega) hl
      simp only [decide_eq_false_iff_not] at this
      omega
    · have := daysBeforeYear_ge (y + 1)
      omega

theorem monthOfDay_spec (y : Nat) {n : Nat} (h : n < yearLength y) :
    1 ≤ monthOfDay y n ∧ monthOfDay y n ≤ 12 ∧ daysBeforeMonth y (monthOfDay y n) ≤ n ∧
      n < daysBeforeMonth y (monthOfDay y n) + monthDays y (monthOfDay y n) := by
  rw [yearLength_eq] at h
  unfold monthOfDay daysBeforeMonth monthDays
  generalize isLeap y = b at h ⊢
  cases b <;> (revert n; decide +kernel)

/-- `civilAt` is the calendar: the moment that lies so many seconds after the beginning of 1970. -/
theorem civilAt_spec {l : Int} (h : 0 ≤ l / 86400 + 719162) :
    RealMoment (civilAt l) ∧ (civilAt l).second < 60 ∧ sinceEpoch (civilAt l) = l := by
  obtain ⟨n, hn⟩ : ∃ n : Nat, (l / 86400 + 719162 : Int) = n := ⟨_, (Int.toNat_of_nonneg h).symm⟩
  obtain ⟨s, hs⟩ : ∃ s : Nat, (l % 86400 : Int) = s := ⟨_, (Int.toNat_of_nonneg (by omega)).symm⟩
  have e : civilAt l = ⟨yearOfDay n, monthOfDay (yearOfDay n) (n - daysBeforeYear (yearOfDay n)),
      n - daysBeforeYear (yearOfDay n) - daysBeforeMonth (yearOfDay n) (monthOfDay (yearOfDay n) (n - daysBeforeYear (yearOfDay n))) + 1,
      s / 3600, s % 3600 / 60, s % 60⟩ := by
    unfold civilAt
    rw [hn, hs]
    rfl
  rw [e]
  obtain ⟨y1, y2, y3⟩ := yearOfDay_spec n
  generalize yearOfDay n = y at *
  rw [daysBeforeYear_succ (by omega)] at y3
  obtain ⟨m1, m2, m3, m4⟩ := monthOfDay_spec y (n := n - daysBeforeYear y) (by omega)
  generalize monthOfDay y (n - daysBeforeYear y) = m at *
  have hr : RealDay y m (n - daysBeforeYear y - daysBeforeMonth y m + 1) := by
    refine ⟨y1, m1, m2, by omega, ?_⟩
    rw [← monthDays_eq y m1 m2]
    omega
  refine ⟨⟨hr, ?_, ?_, ?_⟩, ?_, ?_⟩
  · show s / 3600 < 24; omega
  · show s % 3600 / 60 < 60; omega
  · show s % 60 < 62; omega
  · show s % 60 < 60; omega
  · rw [← civilSeconds_eq hr]
    unfold civilSeconds
    dsimp only
    rw [show daysBeforeYear y + daysBeforeMonth y m + (n - daysBeforeYear y - daysBeforeMonth y m + 1) = n + 1 by omega]
    omega

/-- **C130** (order): a moment comes before another if and only if fewer seconds have passed. -/
theorem C130_order (a b : Civil) (ha : RealMoment a) (hb : RealMoment b) (sa : a.second < 60) (sb : b.second < 60) :
    sinceEpoch a < sinceEpoch b ↔
      [a.year, a.month, a.day, a.hour, a.minute, a.second] < [b.year, b.month, b.day, b.hour, b.minute, b.second] := by
  have key := dayNumber_lt ha.1 hb.1
  have key' := dayNumber_lt hb.1 ha.1
  obtain ⟨-, a1, a2, -⟩ := ha
  obtain ⟨-, b1, b2, -⟩ := hb
  simp only [List.cons_lt_cons_iff, List.not_lt_nil, and_false, or_false]
  unfold sinceEpoch
  generalize dayNumber a.year a.month a.day = da at *
  generalize dayNumber b.year b.month b.day = db at *
  omega

/-- Two moments at which the same number of seconds has passed are the same. -/
theorem sinceEpoch_inj {a b : Civil} (ha : RealMoment a) (hb : RealMoment b) (sa : a.second < 60) (sb : b.second < 60)
    (h : sinceEpoch a = sinceEpoch b) : a = b := by
  have h1 := C130_order a b ha hb sa sb
  have h2 := C130_order b a hb ha sb sa
  rw [h] at h1 h2
  obtain ⟨y, m, d, hh, mm, ss⟩ := a
  obtain ⟨y', m', d', hh', mm', ss'⟩ := b
  simp only [Int.lt_irrefl, false_iff, List.cons_lt_cons_iff, List.not_lt_nil, and_false, or_false] at h1 h2
  have : y = y' := by omega
  have : m = m' := by omega
  have : d = d' := by omega
  have : hh = hh' := by omega
  have : mm = mm' := by omega
  have : ss = ss' := by omega
  simp [*]

theorem natStr_four {n : Nat} (h1 : 1000 ≤ n) (h2 : n ≤ 9999) : FourDigits (natStr n) := by
  refine ⟨(Digits_iff _).2 ⟨natStr_ne_nil n, natStr_digits n⟩, ?_⟩
  have a := Nat.length_toDigits_le_iff (b := 10) (n := n) (k := 4) (by decide) (by decide)
  have b := Nat.length_toDigits_le_iff (b := 10) (n := n) (k := 3) (by decide) (by decide)
  unfold natStr
  omega

theorem clock_year {z : Zone} {e : Int} {c : Civil} (h : ClockAt z e c) : civilAt (e + z.shift e) = c := by
  obtain ⟨h1, h2, h3⟩ := h
  have h0 : (0 : Int) ≤ (e + z.shift e) / 86400 + 719162 := by
    rw [← h3]
    unfold sinceEpoch
    rw [show dayNumber 1970 1 1 = 719162 by decide +kernel]
    omega
  obtain ⟨g1, g2, g3⟩ := civilAt_spec h0
  exact sinceEpoch_inj g1 h1 g2 h2 (g3.trans h3.symm)

theorem lockText_at (F : FloatSeconds) (G : FloatDelta) (z : Zone) (clock now : Int) {c0 : Civil} (h0 : ClockAt z clock c0)
    (hy : 1000 ≤ c0.year ∧ c0.year ≤ 9999) (d : DayText) (t : ClockText) (hd : d.Good) (ht : t.Good) :
    ∃ vs, vs = dayVals (natStr c0.year) d ++ clockVals t ∧ lockText F (calendarAt G z clock) now (d.text ++ t.text) =
      if allFull (dayVals (natStr c0.year) d) = true ∧ allFull (clockVals t) = true ∧ RealDay (civilOf vs).year (civilOf vs).month (civilOf vs).day then
        .ok (z.stamp (sinceEpoch (civilOf vs))) else .error .valueError := by
  refine ⟨_, rfl, ?_⟩
  have hyear : (calendarAt G z clock).year = natStr c0.year := by
    show natStr (civilAt (clock + z.shift clock)).year = _
    rw [clock_year h0]
  rw [C101_date F _ now d t hd ht, hyear]
  show (do return z.stamp (civilSeconds (← strptime _ _)) : Res Int) = _
  rw [strptime_eq, whole_date (natStr_four hy.1 hy.2) hd ht]
  by_cases e1 : allFull (dayVals (natStr c0.year) d) = true ∧ allFull (clockVals t) = true
  · rw [if_pos e1]
    obtain ⟨e1, e2⟩ := e1
    simp only [e1, e2, true_and]
    generalize civilOf (dayVals (natStr c0.year) d ++ clockVals t) = c
    by_cases e3 : RealDay c.year c.month c.day
    · rw [if_pos e3]
      obtain ⟨r1, r2, r3, r4, r5⟩ := e3
      rw [if_pos ⟨by omega, r2, r3, r4, by rw [monthDays_eq _ r2 r3]; exact r5⟩]
      show Except.ok (z.stamp (civilSeconds c)) = _
      rw [civilSeconds_eq ⟨r1, r2, r3, r4, r5⟩]
    · rw [if_neg e3, if_neg]
      · rfl
      · rintro ⟨r1, r2, r3, r4, r5⟩
        exact e3 ⟨by omega, r2, r3, r4, by rw [← monthDays_eq _ r2 r3]; exact r5⟩
  · rw [if_neg e1, if_neg]
    · rfl
    · rintro ⟨r1, r2, r3⟩
      exact e1 ⟨r1, r2⟩

theorem clock_range {vs : List (Char × Str)} (hv : ∀ c ∈ "HIpMS".toList, vs.lookup c = none) {t : ClockText} (ht : t.Good)
    (hf : allFull (clockVals t) = true) :
    (civilOf (vs ++ clockVals t)).hour < 24 ∧ (civilOf (vs ++ clockVals t)).minute < 60 ∧ (civilOf (vs ++ clockVals t)).second < 62 := by
  have hH := hv 'H' (by decide)
  have hI := hv 'I' (by decide)
  have hp := hv 'p' (by decide)
  have hM := hv 'M' (by decide)
  have hS := hv 'S' (by decide)
  cases t with
  | midnight =>
    rw [civilOf_hour (m := ['0', '0']) (by rw [lookup_app, hI]; rfl) (by rw [lookup_app, hH]; rfl) (by decide),
      civilOf_minute (m := ['0', '0']) (by rw [lookup_app, hM]; rfl) (by decide),
      civilOf_second (m := ['0', '0']) (by rw [lookup_app, hS]; rfl) (by decide)]
    decide
  | hm h m =>
    obtain ⟨h1, h2⟩ := ht
    rw [civilOf_hour (m := h) (by rw [lookup_app, hI]; rfl) (by rw [lookup_app, hH]; rfl) (dig h1),
      civilOf_minute (m := m) (by rw [lookup_app, hM]; rfl) (dig h2),
      civilOf_no_second (by rw [lookup_app, hS]; rfl)]
    simp only [clockVals, allFull, List.all_cons, List.all_nil, Bool.and_true, Bool.and_eq_true, full_H h1, full_M h2] at hf
    omega
  | hms h m s =>
    obtain ⟨h1, h2, h3⟩ := ht
    rw [civilOf_hour (m := h) (by rw [lookup_app, hI]; rfl) (by rw [lookup_app, hH]; rfl) (dig h1),
      civilOf_minute (m := m) (by rw [lookup_app, hM]; rfl) (dig h2),
      civilOf_second (m := s) (by rw [lookup_app, hS]; rfl) (dig h3)]
    simp only [clockVals, allFull, List.all_cons, List.all_nil, Bool.and_true, Bool.and_eq_true, full_H h1, full_M h2, full_S h3] at hf
    omega
  | halfHm h x m =>
    obtain ⟨h1, hx, h2⟩ := ht
    rw [civilOf_half (m := h) (x := x) (by rw [lookup_app, hI]; rfl) (by rw [lookup_app, hp]; rfl) (dig h1),
      civilOf_minute (m := m) (by rw [lookup_app, hM]; rfl) (dig h2),
      civilOf_no_second (by rw [lookup_app, hS]; rfl)]
    simp only [clockVals, allFull, List.all_cons, List.all_nil, Bool.and_true, Bool.and_eq_true, full_I h1, full_M h2] at hf
    have := ((half_iff (h := digits h) hx _).2 ⟨hf.1.2.1, hf.1.2.2, rfl⟩).2.2.2.1
    omega
  | halfHms h x m s =>
    obtain ⟨h1, hx, h2, h3⟩ := ht
    rw [civilOf_half (m := h) (x := x) (by rw [lookup_app, hI]; rfl) (by rw [lookup_app, hp]; rfl) (dig h1),
      civilOf_minute (m := m) (by rw [lookup_app, hM]; rfl) (dig h2),
      civilOf_second (m := s) (by rw [lookup_app, hS]; rfl) (dig h3)]
    simp only [clockVals, allFull, List.all_cons, List.all_nil, Bool.and_true, Bool.and_eq_true, full_I h1, full_M h2, full_S h3] at hf
    have := ((half_iff (h := digits h) hx _).2 ⟨hf.1.2.1, hf.1.2.2, rfl⟩).2.2.2.1
    omega

/-- **C130** (dates): a lock given as a date, with or without a time of the day, is the timestamp of the moment the text means in the Gregorian
calendar, in the local time zone; a text that means no moment that exists, such as the 30th of February, is refused with a `ValueError`. -/
theorem C130_date (F : FloatSeconds) (G : FloatDelta) (z : Zone) (clock now : Int) {c0 : Civil} (h0 : ClockAt z clock c0)
    (hy : 1000 ≤ c0.year ∧ c0.year ≤ 9999) (d : DayText) (t : ClockText) (hd : d.Good) (ht : t.Good) :
    (∀ v, lockText F (calendarAt G z clock) now (d.text ++ t.text) = .ok v ↔
      ∃ c, d.Is c0.year c ∧ t.Is c ∧ RealMoment c ∧ v = z.stamp (sinceEpoch c)) ∧
    ((¬ ∃ c, d.Is c0.year c ∧ t.Is c ∧ RealMoment c) → lockText F (calendarAt G z clock) now (d.text ++ t.text) = .error .valueError) := by
  obtain ⟨vs, hvs, e⟩ := lockText_at F G z clock now h0 hy d t hd ht
  have hn : digits (natStr c0.year) = c0.year := by rw [digits_eq, digVal_natStr]
  have hfour := natStr_four hy.1 hy.2
  have iff : ∀ c, (d.Is c0.year c ∧ t.Is c ∧ RealMoment c) ↔
      (allFull (dayVals (natStr c0.year) d) = true ∧ allFull (clockVals t) = true ∧ RealDay (civilOf vs).year (civilOf vs).month (civilOf vs).day) ∧ c = civilOf vs := by
    intro c
    constructor
    · rintro ⟨i1, i2, r1, r2⟩
      obtain ⟨a1, a2, a3, a4⟩ := (day_iff hn hfour hd (clockVals t) c (clock_no_day t) r1).1 i1
      obtain ⟨b1, b2, b3, b4⟩ := (clock_iff (day_no_clock (natStr c0.year) d) ht c r2).1 i2
      have : c = civilOf vs := by
        rw [hvs]
        obtain ⟨y, m, dd, h, mm, s⟩ := c
        cases he : civilOf (dayVals (natStr c0.year) d ++ clockVals t)
        rw [he] at a2 a3 a4 b2 b3 b4
        simp_all
      exact ⟨⟨a1, b1, this ▸ r1⟩, this⟩
    · rintro ⟨⟨a, b, r⟩, rfl⟩
      have r2 : (civilOf vs).hour < 24 ∧ (civilOf vs).minute < 60 ∧ (civilOf vs).second < 62 := by
        rw [hvs]
        exact clock_range (day_no_clock (natStr c0.year) d) ht b
      refine ⟨(day_iff hn hfour hd (clockVals t) _ (clock_no_day t) r).2 ⟨a, ?_⟩, (clock_iff (day_no_clock (natStr c0.year) d) ht _ r2).2 ⟨b, ?_⟩, r, r2⟩
      · rw [hvs]; exact ⟨rfl, rfl, rfl⟩
      · rw [hvs]; exact ⟨rfl, rfl, rfl⟩
  constructor
  · intro v
    rw [e]
    constructor
    · intro h
      split at h
      · rename_i hc
        cases h
        obtain ⟨i1, i2, i3⟩ := (iff (civilOf vs)).2 ⟨hc, rfl⟩
        exact ⟨_, i1, i2, i3, rfl⟩
      · cases h
    · rintro ⟨c, i1, i2, i3, rfl⟩
      obtain ⟨hc, rfl⟩ := (iff c).1 ⟨i1, i2, i3⟩
      rw [if_pos hc]
  · intro hno
    rw [e, if_neg]
    intro hc
    exact hno ⟨_, (iff (civilOf vs)).2 ⟨hc, rfl⟩⟩


/-! ## What is shown -/

theorem twoDigits_good {n : Nat} (h : n ≤ 99) : OneOrTwo (twoDigits n) ∧ digits (twoDigits n) = n := by
  have : ∀ n ≤ 99, (twoDigits n ≠ [] ∧ (twoDigits n).all isDig = true ∧ (twoDigits n).length ≤ 2) ∧ digVal (twoDigits n) = n := by decide +kernel
  obtain ⟨⟨h1, h2, h3⟩, h4⟩ := this n h
  exact ⟨⟨(Digits_iff _).2 ⟨h1, by simpa using h2⟩, h3⟩, by rw [digits_eq, h4]⟩

/-- **C130** (what is shown): the text in which a lock shows its timestamp is a date that, given as a lock again, is the same timestamp, unless the
local clock shows that text twice because it is set back. -/
theorem C130_shown (F : FloatSeconds) (G : FloatDelta) (z : Zone) (hz : LawfulZone z) (clock now e : Int) {c0 c : Civil} (h0 : ClockAt z clock c0)
    (hy : 1000 ≤ c0.year ∧ c0.year ≤ 9999) (he : 500000000 ≤ e) (hc : ClockAt z e c) (hcy : 1000 ≤ c.year ∧ c.year ≤ 9999)
    (once : ∀ e', e' + z.shift e' = e + z.shift e → e' = e) :
    lockText F (calendarAt G z clock) now (lockShown z e) = .ok e := by
  have hm := monthLength_le c.year c.month
  have hc' := hc
  obtain ⟨⟨⟨r1, r2, r3, r4, r5⟩, r6, r7, r8⟩, r9, r10⟩ := hc
  obtain ⟨m1, m2⟩ := twoDigits_good (n := c.month) (by omega)
  obtain ⟨d1, d2⟩ := twoDigits_good (n := c.day) (by omega)
  obtain ⟨h1, h2⟩ := twoDigits_good (n := c.hour) (by omega)
  obtain ⟨n1, n2⟩ := twoDigits_good (n := c.minute) (by omega)
  obtain ⟨s1, s2⟩ := twoDigits_good (n := c.second) (by omega)
  have ht : lockShown z e = (DayText.ymd (natStr c.year) (twoDigits c.month) (twoDigits c.day)).text ++
      (ClockText.hms (twoDigits c.hour) (twoDigits c.minute) (twoDigits c.second)).text := by
    unfold lockShown
    rw [if_pos (by omega)]
    unfold clockText
    rw [clock_year hc']
    simp [civilText, DayText.text, ClockText.text]
  rw [ht]
  refine ((C130_date F G z clock now h0 hy (.ymd _ _ _) (.hms _ _ _) ⟨natStr_four hcy.1 hcy.2, m1, d1⟩ ⟨h1.1, n1.1, s1.1⟩).1 e).2
    ⟨c, ⟨by rw [digits_eq, digVal_natStr], m2.symm, d2.symm⟩, ⟨h1.2, n1.2, s1.2, h2.symm, n2.symm, s2.symm⟩, ⟨⟨r1, r2, r3, r4, r5⟩, r6, r7, r8⟩, ?_⟩
  rw [r10]
  exact (once _ (hz e)).symm

/-- **C130** (what is shown, refuted): an hour that the local clock shows twice is shown in the same way both times, so that at most one of the two
timestamps is read from it. -/
theorem C130_repeated_hour_false (F : FloatSeconds) (cal : Calendar) (z : Zone) (now e e' : Int) (he : 500000000 ≤ e) (he' : 500000000 ≤ e')
    (hne : e ≠ e') (h : e + z.shift e = e' + z.shift e') :
    ¬ (lockText F cal now (lockShown z e) = .ok e ∧ lockText F cal now (lockShown z e') = .ok e') := by
  rintro ⟨h1, h2⟩
  have : lockShown z e = lockShown z e' := by
    unfold lockShown clockText
    rw [if_pos (by omega), if_pos (by omega), h]
  rw [this, h2] at h1
  exact hne (Except.ok.inj h1).symm

theorem number_refused (F : FloatSeconds) (cal : Calendar) (now : Int) {s : Str} (hs : Digits s) (hz0 : s ≠ ['0']) :
    lockText F cal now s = .error .valueError := by
  obtain ⟨hne, hd⟩ := (Digits_iff s).1 hs
  have hno : ∀ x : Char, isDig x = false → x ∉ s := fun x hx => not_digit_mem hs hx
  have hl : lockText F cal now s = dateClean cal s := by
    cases hcs : s with
    | nil => exact absurd hcs hne
    | cons c r =>
      have hc : isDig c = true := hd c (by rw [hcs]; simp)
      have hplus : c ≠ '+' := fun e => by subst e; exact absurd hc (by decide)
      unfold lockText lstrip
      simp [digit_space hc, hplus]
  have hf : s.filter (fun c => c != '\'' && c != '"') = s := by
    rw [List.filter_eq_self]
    intro x hx
    have h1 : x ≠ '\'' := fun e => hno _ (by decide) (e ▸ hx)
    have h2 : x ≠ '"' := fun e => hno _ (by decide) (e ▸ hx)
    simp [h1, h2]
  have hz : ¬ (s = ['0'] ∨ s = []) := by
    rintro (h | h)
    · exact hz0 h
    · exact hne h
  have hcon : ∀ x : Char, isDig x = false → s.contains x = false := by
    intro x hx
    simp only [List.contains_eq_mem, decide_eq_false_iff_not]
    exact hno x hx
  have hp : dateProcess cal s = .error .valueError := by
    unfold dateProcess
    rw [hcon '/' (by decide)]
    rfl
  rw [hl]
  unfold dateClean
  simp only [hf, digits_strip hs, if_neg hz, hcon '+' (by decide), hcon '-' (by decide), hcon ':' (by decide)]
  show (do let (tt, tf) ← timeProcess []; let (dd, df) ← dateProcess cal s; cal.read (dd ++ [' '] ++ tt) (df ++ [' '] ++ tf)) = _
  rw [hp]
  rfl

/-- **C130** (block heights): the text in which a lock shows a block height other than 0 is no date; given as a lock it is refused. -/
theorem C130_height_refused (F : FloatSeconds) (cal : Calendar) (z : Zone) (now : Int) (n : Nat) (h0 : n ≠ 0) (hn : n < 500000000) :
    lockText F cal now (lockShown z n) = .error .valueError := by
  have e : lockShown z n = natStr n := by
    unfold lockShown
    rw [if_neg (by omega), intStr, if_neg (by omega)]
    rfl
  rw [e]
  refine number_refused F cal now ((Digits_iff _).2 ⟨natStr_ne_nil n, natStr_digits n⟩) fun h => h0 ?_
  have := digVal_natStr n
  rw [h] at this
  exact this.symm

/-! ## Some time ago -/

/-- A text behind a minus sign, without quotes and with no white space at its end. -/
theorem lockText_minus (F : FloatSeconds) (G : FloatDelta) (z : Zone) (clock now : Int) (s : Str) {u : Char} (hu : isPySpace u = false)
    (hq : ∀ c ∈ s ++ [u], c ≠ '\'' ∧ c ≠ '"') (hs : ∀ c, (s ++ [u]).head? = some c → isPySpace c = false ∧ c ≠ '+') (hm : '-' ∈ s ++ [u]) :
    lockText F (calendarAt G z clock) now (s ++ [u]) = match timeUnits.lookup u with
      | none => .error .exception
      | some n => do return clock + (← deltaValue G s n) := by
  have hl : lockText F (calendarAt G z clock) now (s ++ [u]) = dateClean (calendarAt G z clock) (s ++ [u]) := by
    cases hcs : s ++ [u] with
    | nil => simp at hcs
    | cons c r =>
      obtain ⟨h1, h2⟩ := hs c (by rw [hcs]; rfl)
      unfold lockText lstrip
      simp [h1, h2]
  have hf : (s ++ [u]).filter (fun c => c != '\'' && c != '"') = s ++ [u] := by
    rw [List.filter_eq_self]
    intro x hx
    obtain ⟨h1, h2⟩ := hq x hx
    simp [h1, h2]
  have hstrip : strip (s ++ [u]) = s ++ [u] := by
    refine strip_eq_self (fun x hx => (hs x hx).1) (fun x hx => ?_)
    rw [List.getLast?_append_of_ne_nil _ (by simp)] at hx
    cases hx
    exact hu
  have hz : ¬ (s ++ [u] = ['0'] ∨ s ++ [u] = []) := by
    rintro (h | h)
    · rw [h] at hm; exact absurd hm (by decide)
    · simp at h
  have hsign : ((s ++ [u]).contains '+' || (s ++ [u]).contains '-') = true := by
    simp only [Bool.or_eq_true, List.contains_eq_mem, decide_eq_true_eq]
    exact .inr hm
  rw [hl]
  unfold dateClean
  simp only [hf, hstrip, if_neg hz, hsign, if_true]
  show epochDelta G clock (s ++ [u]) = _
  unfold epochDelta
  rw [hstrip, if_neg (fun h => hz (.inl h)), List.getLast?_append_of_ne_nil _ (by simp), List.dropLast_concat]
  rfl

/-- **C130** (a time ago): a lock given as a minus sign, a whole number and a unit is that long before now, by the clock of the machine. -/
theorem C130_ago (F : FloatSeconds) (G : FloatDelta) (z : Zone) (clock now : Int) (ds : Str) (hd : Digits ds) (u : Char) (n : Nat) (hu : AgoUnit u n)
    (hn : digits ds * n < 2 ^ 53) :
    lockText F (calendarAt G z clock) now ('-' :: (ds ++ [u])) = .ok (clock - digits ds * n) := by
  have hne := ((Digits_iff ds).1 hd).1
  have hdig := ((Digits_iff ds).1 hd).2
  have hlook : timeUnits.lookup u = some n ∧ isPySpace u = false ∧ u ≠ '\'' ∧ u ≠ '"' := by
    have h12 : ∀ n : Nat, 12 * n = 365 * 24 * 60 * 60 → n = 2628000 := by omega
    rcases hu with ⟨rfl, rfl⟩ | ⟨rfl, rfl⟩ | ⟨rfl, rfl⟩ | ⟨rfl, rfl⟩ | ⟨rfl, rfl⟩ | ⟨rfl, h⟩ | ⟨rfl, rfl⟩
    · decide
    · decide
    · decide
    · decide
    · decide
    · rw [h12 n h]; decide
    · decide
  have e := lockText_minus F G z clock now ('-' :: ds) hlook.2.1 (fun c hc => by
      rcases List.mem_append.1 hc with hc | hc
      · rcases List.mem_cons.1 hc with rfl | hc
        · decide
        · have := hdig c hc
          exact ⟨fun e => by subst e; exact absurd this (by decide), fun e => by subst e; exact absurd this (by decide)⟩
      · rw [List.mem_singleton.1 hc]
        exact hlook.2.2) (fun c hc => by cases hc; decide) (by simp)
  rw [List.cons_append] at e
  rw [e, hlook.1]
  have hmap : ds.map asciiDigit = ds := by
    conv => rhs; rw [← List.map_id ds]
    exact List.map_congr_left fun c hc => asciiDigit_digit (hdig c hc)
  have hv : deltaValue G ('-' :: ds) n = .ok (-(digVal ds * n : Nat)) := by
    unfold deltaValue
    simp only [hmap]
    rw [if_pos ⟨.inr trivial, hne, by simpa using hdig, by rw [← digits_eq]; exact hn⟩]
    rfl
  simp only [hv, digits_eq]
  show Except.ok (clock + -((digVal ds * n : Nat) : Int)) = _
  congr 1

/-- **C130** (other texts with a minus sign): a text with a minus sign that does not end in one of the units is refused; dates cannot be written
with minus signs. -/
theorem C130_dashes_refused (F : FloatSeconds) (G : FloatDelta) (z : Zone) (clock now : Int) (s : Str) {u : Char} (hu : ¬ ∃ n, AgoUnit u n)
    (hsp : isPySpace u = false) (hq : ∀ c ∈ s ++ [u], c ≠ '\'' ∧ c ≠ '"') (hs : ∀ c, (s ++ [u]).head? = some c → isPySpace c = false ∧ c ≠ '+')
    (hm : '-' ∈ s ++ [u]) : lockText F (calendarAt G z clock) now (s ++ [u]) = .error .exception := by
  rw [lockText_minus F G z clock now s hsp hq hs hm]
  have : timeUnits.lookup u = none := by
    rw [List.lookup_eq_none_iff]
    rintro ⟨c, n⟩ hc
    have : AgoUnit c n := by
      simp only [timeUnits, List.mem_cons, Prod.mk.injEq, List.not_mem_nil, or_false] at hc
      unfold AgoUnit
      rcases hc with h | h | h | h | h | h | h <;> simp [h.1, h.2]
    simp only [bne_iff_ne, ne_eq]
    intro e
    subst e
    exact hu ⟨n, this⟩
  rw [this]


/-! ## Cases -/

/-- The second of October 2019, 07:06:40 UTC. -/
def octoberNow : Civil := ⟨2019, 10, 2, 7, 6, 40⟩

theorem octoberNow_utc : ClockAt (fixedZone 0) 1570000000 octoberNow := by unfold ClockAt; decide +kernel

theorem fixedZone_lawful (s : Int) : LawfulZone (fixedZone s) := by
  intro e
  show e + s - s + s = e + s
  omega

example : lockText (fun _ => .error .valueError) (calendarAt (fun _ _ => .error .valueError) (fixedZone 0) 1570000000) 0
    (octoberThen.text ++ halfPast.text) = .ok 341843400 :=
  ((C130_date _ _ (fixedZone 0) 1570000000 0 octoberNow_utc (by decide) octoberThen halfPast
    (by unfold octoberThen DayText.Good OneOrTwo FourDigits Digits; decide) (by unfold halfPast ClockText.Good Digits; decide)).1 _).2
    ⟨⟨1980, 10, 31, 12, 30, 0⟩, by unfold octoberThen DayText.Is; decide, by unfold halfPast ClockText.Is; decide, by decide +kernel, by decide +kernel⟩

example : lockText (fun _ => .error .valueError) (calendarAt (fun _ _ => .error .valueError) (fixedZone 3600) 1570000000) 0 "2020/2/29".toList = .ok 1582930800 ∧
    lockText (fun _ => .error .valueError) (calendarAt (fun _ _ => .error .valueError) (fixedZone 3600) 1570000000) 0 "2019/2/29".toList = .error .valueError := by
  decide +kernel

example : lockShown (fixedZone 0) 1570000000 = "2019/10/02 07:06:40".toList ∧
    lockText (fun _ => .error .valueError) (calendarAt (fun _ _ => .error .valueError) (fixedZone 0) 1570000000) 0 (lockShown (fixedZone 0) 1570000000) = .ok 1570000000 :=
  ⟨by decide +kernel, C130_shown _ _ _ (fixedZone_lawful 0) _ _ _ octoberNow_utc (by decide) (by decide) octoberNow_utc (by decide)
    fun e' h => by simpa [fixedZone] using h⟩

/-- A clock that is set back by an hour at a timestamp. -/
def setBack (at' : Int) : Zone := ⟨fun e => if e < at' then 7200 else 3600, fun l => if l - 7200 < at' then l - 7200 else l - 3600⟩

/-- The hypotheses of `C130_repeated_hour_false` are met in the night of the 27th of October 2019 in Brussels. -/
example : (1572136200 : Int) ≠ 1572139800 ∧ 1572136200 + (setBack 1572138000).shift 1572136200 = 1572139800 + (setBack 1572138000).shift 1572139800 ∧
    lockShown (setBack 1572138000) 1572136200 = "2019/10/27 02:30:00".toList := by decide +kernel

example : RealDay 2020 2 29 ∧ ¬ RealDay 2019 2 29 := by decide +kernel

example : NextDay (2019, 12, 31) (2020, 1, 1) ∧ NextDay (2020, 2, 28) (2020, 2, 29) := by simp [NextDay]

example : lockText (fun _ => .error .valueError) (calendarAt (fun _ _ => .error .valueError) (fixedZone 0) 1570000000) 0 "-4h".toList = .ok 1569985600 :=
  (C130_ago _ _ _ _ _ ['4'] (by unfold Digits; decide) 'h' 3600 (.inr (.inr (.inl ⟨rfl, rfl⟩))) (by decide)).trans (by decide)

example : lockText (fun _ => .error .valueError) (calendarAt (fun _ _ => .error .valueError) (fixedZone 0) 1570000000) 0 "2019-10-31".toList = .error .exception := by
  decide +kernel

end TF.Props
