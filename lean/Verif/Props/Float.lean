import Verif.Spec.Float
import Verif.Lemmas.Float
import Verif.Props.Calendar
import Verif.Props.Asked
import Mathlib.Data.List.Induction
/-! # C131: durations with decimal points -/
namespace TF.Props
open TF Spec

/-! ## Numbers -/

theorem digVal_app (a b : Str) : digVal (a ++ b) = digVal a * 10 ^ b.length + digVal b := by
  rw [← digits_eq, ← digits_eq, ← digits_eq]
  unfold digits
  rw [List.foldl_append]
  obtain ⟨x, hx⟩ : ∃ x, List.foldl (fun n (c : Char) => 10 * n + (c.toNat - '0'.toNat)) 0 a = x := ⟨_, rfl⟩
  rw [hx]
  clear hx
  induction b using List.reverseRecOn with
  | nil => simp
  | append_singleton b c ih =>
    rw [List.foldl_append, List.foldl_append, ih]
    simp only [List.foldl_cons, List.foldl_nil, List.length_append, List.length_cons, List.length_nil]
    ring

theorem good_digits {q : Quantity} (h : q.Good) : (∀ c ∈ q.whole, isDig c = true) ∧ ∀ f, q.frac = some f → ∀ c ∈ f, isDig c = true := by
  have hd : ∀ c : Char, ('0' ≤ c ∧ c ≤ '9') → isDig c = true := by
    intro c hc
    have := (Digits_iff [c]).1 ⟨by simp, by simpa using hc⟩
    simpa using this.2
  refine ⟨fun c hc => hd c (h.1 c (by simp [hc])), fun f hf c hc => hd c (h.1 c ?_)⟩
  rw [hf]
  simp [hc]

theorem dot_not {s : Str} (h : ∀ c ∈ s, isDig c = true) : '.' ∉ s := fun hm => absurd (h _ hm) (by decide)

theorem takeWhile_dot {a : Str} (h : '.' ∉ a) (r : Str) :
    (a ++ '.' :: r).takeWhile (· != '.') = a ∧ (a ++ '.' :: r).dropWhile (· != '.') = '.' :: r :=
  takeWhile_run (fun c hc => by simpa using fun e : c = '.' => h (e ▸ hc)) (by decide) r

theorem takeWhile_nodot {a : Str} (h : '.' ∉ a) : a.takeWhile (· != '.') = a ∧ a.dropWhile (· != '.') = [] := by
  have : ∀ c ∈ a, (c != '.') = true := fun c hc => by simpa using fun e : c = '.' => h (e ▸ hc)
  induction a with
  | nil => exact ⟨rfl, rfl⟩
  | cons x a ih =>
    obtain ⟨e1, e2⟩ := ih (fun hm => h (by simp [hm])) (fun c hc => this c (by simp [hc]))
    have hx := this x (by simp)
    rw [List.takeWhile_cons, List.dropWhile_cons, hx]
    exact ⟨by rw [if_pos rfl, e1], e2⟩

/-- A number is read as the nearest float. -/
theorem floatText_good {q : Quantity} (h : q.Good) : floatText q.text = .ok (fl q.value) := by
  obtain ⟨h1, h2⟩ := good_digits h
  obtain ⟨a, o⟩ := q
  cases o with
  | none =>
    obtain ⟨e1, e2⟩ := takeWhile_nodot (dot_not h1)
    have hne : a ≠ [] := by simpa [Quantity.Good] using h.2
    simp only [floatText, Quantity.text, Quantity.value, e1, e2, if_neg hne]
    simp [digits_eq, digVal]
  | some f =>
    have hf := h2 f rfl
    obtain ⟨e1, e2⟩ := takeWhile_dot (dot_not h1) f
    have hc : ¬ (f.contains '.' = true ∨ (a = [] ∧ f = [])) := by
      rintro (hc | ⟨rfl, rfl⟩)
      · exact dot_not hf (by simpa using hc)
      · exact h.2 rfl
    simp only [floatText, Quantity.text, Quantity.value, e1, e2, if_neg hc]
    congr 2
    rw [digVal_app]
    simp only [digits_eq, Option.getD_some]
    push_cast
    field_simp

/-- What is read as a float is a number. -/
theorem floatText_ok {s : Str} {v : ℚ} (hs : ∀ c ∈ s, isNumCh c = true) (h : floatText s = .ok v) : ∃ q : Quantity, q.Good ∧ q.text = s := by
  have hdig : ∀ c ∈ s, c ≠ '.' → '0' ≤ c ∧ c ≤ '9' := by
    intro c hc hne
    have := hs c hc
    simp only [isNumCh, Bool.or_eq_true, beq_iff_eq] at this
    have hd := this.resolve_right hne
    exact ((Digits_iff [c]).2 ⟨by simp, by simpa using hd⟩).2 c (by simp)
  have hsplit := List.takeWhile_append_dropWhile (p := (· != '.')) (l := s)
  have ha : ∀ c ∈ s.takeWhile (· != '.'), c ≠ '.' := fun c hc => by simpa using takeWhile_mem hc
  unfold floatText at h
  simp only at h
  split at h
  · rename_i hd
    split at h
    · cases h
    · rename_i hne
      rw [hd, List.append_nil] at hsplit
      rw [hsplit] at ha hne
      exact ⟨⟨s, none⟩, ⟨fun c hc => hdig c (by simpa using hc) (ha c (by simpa using hc)), by simpa using hne⟩, rfl⟩
  · rename_i x b hd
    split at h
    · cases h
    · rename_i hne
      have hx : x = '.' := by
        have := List.head?_dropWhile_not (· != '.') s
        rw [hd] at this
        simpa using this
      subst hx
      rw [hd] at hsplit
      refine ⟨⟨s.takeWhile (· != '.'), some b⟩, ⟨fun c hc => ?_, ?_⟩, hsplit⟩
      · rcases List.mem_append.1 hc with hc | hc
        · exact hdig c (by rw [← hsplit]; simp [hc]) (ha c hc)
        · have hc' : c ∈ b := by simpa using hc
          refine hdig c (by rw [← hsplit]; simp [hc']) ?_
          rintro rfl
          exact hne (.inl (by simpa using hc'))
      · intro e
        have := List.append_eq_nil_iff.1 e
        exact hne (.inr ⟨this.1, by simpa using this.2⟩)

theorem value_nonneg (q : Quantity) : 0 ≤ q.value := by
  unfold Quantity.value
  positivity

/-! ## Texts -/

/-- The texts of the numbers. -/
def textsOf (w : PointWritten) : Written :=
  ⟨w.days.map Quantity.text, w.hours.map Quantity.text, w.minutes.map Quantity.text, w.seconds.map Quantity.text⟩

def part (n : Nat) (o : Option Quantity) : List (Nat × Quantity) := (o.map (n, ·)).toList

/-- The numbers, with their units. -/
def numbersOf (w : PointWritten) : List (Nat × Quantity) := part 86400 w.days ++ (part 3600 w.hours ++ (part 60 w.minutes ++ part 1 w.seconds))

theorem textsOf_text (w : PointWritten) : (textsOf w).text = w.text := rfl

theorem chosen_textsOf (w : PointWritten) : chosen (partsOf (textsOf w)) = (numbersOf w).map fun p => (p.1, p.2.text) := by
  obtain ⟨a, b, c, d⟩ := w
  cases a <;> cases b <;> cases c <;> cases d <;> rfl

theorem good_numbers {w : PointWritten} (h : w.Good) : ∀ p ∈ numbersOf w, p.1 ≤ 86400 ∧ p.2.Good := by
  intro p hp
  simp only [numbersOf, part, List.mem_append, Option.mem_toList, Option.mem_def, Option.map_eq_some_iff] at hp
  have key := fun o ho => h o ho
  rcases hp with ⟨q, hq, rfl⟩ | ⟨q, hq, rfl⟩ | ⟨q, hq, rfl⟩ | ⟨q, hq, rfl⟩
  · exact ⟨by norm_num, key w.days (by simp) q hq⟩
  · exact ⟨by norm_num, key w.hours (by simp) q hq⟩
  · exact ⟨by norm_num, key w.minutes (by simp) q hq⟩
  · exact ⟨by norm_num, key w.seconds (by simp) q hq⟩

theorem quantity_chars {q : Quantity} (h : q.Good) : q.text ≠ [] ∧ ∀ c ∈ q.text, isNumCh c = true := by
  obtain ⟨h1, h2⟩ := good_digits h
  obtain ⟨a, o⟩ := q
  cases o with
  | none => exact ⟨by simpa [Quantity.Good, Quantity.text] using h.2, fun c hc => num_of_dig (h1 c hc)⟩
  | some f =>
    refine ⟨by simp [Quantity.text], fun c hc => ?_⟩
    rcases List.mem_append.1 hc with hc | hc
    · exact num_of_dig (h1 c hc)
    · rcases List.mem_cons.1 hc with rfl | hc
      · decide
      · exact num_of_dig (h2 f rfl c hc)

theorem good_texts {w : PointWritten} (h : w.Good) : GoodParts (partsOf (textsOf w)) := by
  have key : ∀ o ∈ [w.days, w.hours, w.minutes, w.seconds], ∀ ds, o.map Quantity.text = some ds → ds ≠ [] ∧ ∀ c ∈ ds, isNumCh c = true := by
    intro o ho ds e
    obtain ⟨q, hq, rfl⟩ := Option.map_eq_some_iff.1 e
    exact quantity_chars (h o ho q hq)
  intro p hp
  simp only [partsOf, textsOf, List.mem_cons, List.not_mem_nil, or_false] at hp
  rcases hp with rfl | rfl | rfl | rfl
  · exact ⟨by show isNumCh 'd' = false; decide, key _ (by simp)⟩
  · exact ⟨by show isNumCh 'h' = false; decide, key _ (by simp)⟩
  · exact ⟨by show isNumCh 'm' = false; decide, key _ (by simp)⟩
  · exact ⟨by show isNumCh 's' = false; decide, key _ (by simp)⟩

theorem parse_point {w : PointWritten} (h : w.Good) : durParse durUnits w.text = some ((numbersOf w).map fun p => (p.1, p.2.text)) := by
  rw [← chosen_textsOf, ← textsOf_text, ← textOf_partsOf]
  exact durParse_text _ (good_texts h) (by show ['d', 'h', 'm', 's'].Nodup; decide)

theorem point_chars {w : PointWritten} (h : w.Good) : ∀ c ∈ w.text, c = '.' ∨ isDig c = true ∨ c = 'd' ∨ c = 'h' ∨ c = 'm' ∨ c = 's' := by
  have key : ∀ o ∈ [w.days, w.hours, w.minutes, w.seconds], ∀ u, ∀ c ∈ unitText u (o.map Quantity.text), c = '.' ∨ isDig c = true ∨ c = u := by
    intro o ho u c hc
    cases o with
    | none => simp [unitText] at hc
    | some q =>
      rcases List.mem_append.1 hc with hc | hc
      · have := (quantity_chars (h _ ho q rfl)).2 c hc
        simp only [isNumCh, Bool.or_eq_true, beq_iff_eq] at this
        rcases this with h | h
        · exact .inr (.inl h)
        · exact .inl h
      · exact .inr (.inr (by simpa using hc))
  intro c hc
  simp only [PointWritten.text, List.mem_append] at hc
  rcases hc with hc | hc | hc | hc
  · rcases key _ (by simp) _ c hc with h | h | h <;> simp [h]
  · rcases key _ (by simp) _ c hc with h | h | h <;> simp [h]
  · rcases key _ (by simp) _ c hc with h | h | h <;> simp [h]
  · rcases key _ (by simp) _ c hc with h | h | h <;> simp [h]

/-- None of the characters is removed. -/
theorem point_char {c : Char} (h : c = '.' ∨ isDig c = true ∨ c = 'd' ∨ c = 'h' ∨ c = 'm' ∨ c = 's') :
    isPySpace c = false ∧ c ≠ '\'' ∧ c ≠ '"' ∧ c.toNat < 128 := by
  rcases h with rfl | h
  · decide
  · have := written_char h
    exact ⟨this.1, this.2.1, this.2.2, written_ascii h⟩

theorem cleaned_point {s : Str} (h : ∀ c ∈ s, c = '.' ∨ isDig c = true ∨ c = 'd' ∨ c = 'h' ∨ c = 'm' ∨ c = 's') :
    (strip (s.filter fun c => c != '\'' && c != '"')).map asciiDigit = s := by
  have : s.filter (fun c => c != '\'' && c != '"') = s := by
    rw [List.filter_eq_self]
    intro c hc
    have := point_char (h c hc)
    simp [this.2.1, this.2.2.1]
  rw [this, strip_eq_self (fun c hc => (point_char (h c (List.mem_of_mem_head? hc))).1) (fun c hc => (point_char (h c (List.mem_of_getLast? hc))).1)]
  exact map_asciiDigit fun c hc => (point_char (h c hc)).2.2.2

theorem point_not_digits {w : PointWritten} (hne : w.text ≠ []) : w.text.all isDig = false := text_not_digits (w := textsOf w) hne

/-- What `clean` does with the text: the sum of its numbers. -/
theorem clean_point (F : FloatSeconds) {w : PointWritten} (h : w.Good) (hne : w.text ≠ []) :
    durClean F (.str w.text) = durTotal F ((numbersOf w).map fun p => (p.1, p.2.text)) := by
  have hz : ¬ (w.text = ['0'] ∨ w.text = []) := by
    rintro (h | h)
    · have := point_not_digits hne
      rw [h] at this
      exact absurd this (by decide)
    · exact hne h
  simp only [durClean, if_neg hz, cleaned_point (point_chars h), point_not_digits hne, parse_point h]
  simp

/-! ## Numbers of microseconds -/

def termsOf (w : PointWritten) : Terms := (numbersOf w).map fun p => (p.1, fl p.2.value, p.2.value)

theorem termsOf_near {w : PointWritten} (h : w.Good) : (termsOf w).Near := by
  intro t ht
  obtain ⟨p, hp, rfl⟩ := List.mem_map.1 ht
  exact ⟨(good_numbers h p hp).1, fl_near (value_nonneg _), value_nonneg _⟩

theorem termsOf_length (w : PointWritten) : (termsOf w).length ≤ 4 := by
  obtain ⟨a, b, c, d⟩ := w
  cases a <;> cases b <;> cases c <;> cases d <;> simp [termsOf, numbersOf, part]

theorem termsOf_sum (w : PointWritten) : (termsOf w).sum = w.total := by
  obtain ⟨a, b, c, d⟩ := w
  cases a <;> cases b <;> cases c <;> cases d <;> simp [Terms.sum, termsOf, numbersOf, part, PointWritten.total, amountOf] <;> ring

theorem termsOf_slack (w : PointWritten) : (termsOf w).slack ≤ 10 ^ 6 * w.total / 2 ^ 53 + 10 ^ 11 / 2 ^ 53 := by
  obtain ⟨a, b, c, d⟩ := w
  cases a <;> cases b <;> cases c <;> cases d <;>
    (simp [Terms.slack, termsOf, numbersOf, part, PointWritten.total, amountOf]; try linarith)

theorem total_nonneg (w : PointWritten) : 0 ≤ w.total := by
  have : ∀ o, 0 ≤ amountOf o := by
    intro o
    cases o with
    | none => exact le_refl _
    | some q => exact value_nonneg q
  unfold PointWritten.total
  have a := this w.days
  have b := this w.hours
  have c := this w.minutes
  have d := this w.seconds
  linarith

/-- The microseconds of a text. -/
theorem micros_near {w : PointWritten} (h : w.Good) :
    ∃ us : Int, pySeconds ((numbersOf w).map fun p => (p.1, p.2.text)) = (if us < 86400 * 10 ^ 9 * 10 ^ 6 then .ok ⌊fl (us / 10 ^ 6)⌋ else .error .overflowError) ∧
      0 ≤ us ∧ |(us : ℚ) - 10 ^ 6 * w.total| ≤ 10 ^ 6 * w.total / 2 ^ 53 + 10 ^ 11 / 2 ^ 53 + 1 / 2 := by
  obtain ⟨h1, h2⟩ := timedeltaUs_near (termsOf w) (termsOf_near h) (termsOf_length w)
  rw [termsOf_sum] at h2
  refine ⟨_, ?_, h1, h2.trans (by have := termsOf_slack w; linarith)⟩
  unfold pySeconds
  have hm : ((numbersOf w).map fun p => (p.1, p.2.text)).mapM (fun p => (do return (p.1, ← floatText p.2) : Res (Nat × ℚ))) =
      .ok ((termsOf w).map fun t => (t.1, t.2.1)) := by
    rw [List.mapM_map]
    unfold termsOf
    rw [List.map_map]
    refine mapM_ok_of fun p hp => ?_
    show (floatText p.2.text >>= fun v => pure (p.1, v)) = _
    rw [floatText_good (good_numbers h p hp).2]
    rfl
  rw [hm]
  show (if _ then _ else _) = _
  rfl

/-- Less than 2^53 microseconds are whole seconds as they should be. -/
theorem seconds_exact {us : Int} (h0 : 0 ≤ us) (h : us < 2 ^ 53) : ⌊fl ((us : ℚ) / 10 ^ 6)⌋ = us / 10 ^ 6 := by
  obtain ⟨n, rfl⟩ := Int.eq_ofNat_of_zero_le h0
  have hd := Nat.div_add_mod n (10 ^ 6)
  have hlt := Nat.mod_lt n (y := 10 ^ 6) (by norm_num)
  obtain ⟨k, hk⟩ : ∃ k, n / 10 ^ 6 = k := ⟨_, rfl⟩
  obtain ⟨r, hr⟩ : ∃ r, n % 10 ^ 6 = r := ⟨_, rfl⟩
  rw [hk, hr] at hd
  rw [hr] at hlt
  have hgoal : ((n : Int) / 10 ^ 6) = (k : Int) := by rw [← hk]; norm_num
  rw [hgoal]
  by_cases hr0 : r = 0
  · have e : ((n : Int) : ℚ) / 10 ^ 6 = (k : ℚ) := by
      rw [← hd, hr0]
      push_cast
      field_simp
      ring
    rw [e, fl_whole (by omega)]
    simp
  · have e : ((n : Int) : ℚ) / 10 ^ 6 = (k : ℚ) + r / 10 ^ 6 := by
      rw [← hd]
      push_cast
      field_simp
      ring
    have hnn : (0 : ℚ) ≤ (k : ℚ) + r / 10 ^ 6 := by positivity
    have hb := abs_le.1 (fl_near hnn)
    rw [← e] at hb
    have hsm : ((n : Int) : ℚ) / 10 ^ 6 / 2 ^ 53 < 1 / 10 ^ 6 := by
      have : ((n : Int) : ℚ) < 2 ^ 53 := by exact_mod_cast h
      rw [div_div, div_lt_div_iff₀ (by norm_num) (by norm_num)]
      nlinarith
    have r1 : (1 : ℚ) / 10 ^ 6 ≤ r / 10 ^ 6 := by
      have : (1 : ℚ) ≤ r := by exact_mod_cast Nat.pos_of_ne_zero hr0
      gcongr
    have r2 : (r : ℚ) / 10 ^ 6 ≤ (10 ^ 6 - 1) / 10 ^ 6 := by
      have : (r : ℚ) + 1 ≤ 10 ^ 6 := by exact_mod_cast hlt
      gcongr
      linarith
    rw [Int.floor_eq_iff]
    push_cast at *
    rw [e] at hb hsm ⊢
    constructor <;> linarith

/-! ## C131 -/

theorem mapM_each {α β : Type} {f : α → Res β} : ∀ {l : List α} {ys : List β}, l.mapM f = .ok ys → ∀ x ∈ l, ∃ y, f x = .ok y
  | [], _, _, x, hx => by simp at hx
  | a :: l, ys, h, x, hx => by
    rw [List.mapM_cons] at h
    obtain ⟨y, hy, h⟩ := bind_ok h
    obtain ⟨zs, hz, -⟩ := bind_ok h
    rcases List.mem_cons.1 hx with rfl | hx
    · exact ⟨y, hy⟩
    · exact mapM_each hz x hx

/-- No number has a point. -/
theorem nopoint {w : PointWritten} (h : w.Good) (hp : ((numbersOf w).map fun p => (p.1, p.2.text)).any (fun p => p.2.contains '.') = false) :
    ∃ n : Nat, (w.total : ℚ) = n ∧ (((numbersOf w).map fun p => (p.1, p.2.text)).map fun p => p.1 * digVal p.2).sum = n := by
  have key : ∀ p ∈ numbersOf w, p.2.value = digVal p.2.text := by
    intro p hm
    have := List.any_eq_false.1 hp (p.1, p.2.text) (List.mem_map_of_mem hm)
    obtain ⟨n, ⟨a, o⟩⟩ := p
    cases o with
    | none => simp [Quantity.value, Quantity.text, digits_eq, digVal]
    | some f => simp [Quantity.text] at this
  refine ⟨_, ?_, rfl⟩
  rw [← termsOf_sum]
  unfold Terms.sum termsOf
  clear hp
  have : ∀ l : List (Nat × Quantity), (∀ p ∈ l, p.2.value = digVal p.2.text) →
      ((l.map fun p => (p.1, fl p.2.value, p.2.value)).map fun t : Nat × ℚ × ℚ => (t.1 : ℚ) * t.2.2).sum =
        (((l.map fun p => (p.1, p.2.text)).map fun p => p.1 * digVal p.2).sum : Nat) := by
    intro l
    induction l with
    | nil => intro _; simp
    | cons p l ih =>
      intro hl
      simp only [List.map_cons, List.sum_cons]
      rw [ih fun q hq => hl q (by simp [hq]), hl p (by simp)]
      push_cast
      rfl
  exact this _ key

/-- **C131** (rounding): a duration like "1.5h" or "2d.5h10.25s" — any of the units, from days down to seconds, each with digits and at most one point —
of less than 2^51 microseconds (71 years) is read as the whole seconds of what it stands for; only if that is less than a microsecond short of the next
second it may be read as that one. -/
theorem C131_reads (w : PointWritten) (hw : w.Good) (hne : w.text ≠ []) (hlim : 10 ^ 6 * w.total < 2 ^ 51 - 1) :
    ∃ n : Int, durClean pySeconds (.str w.text) = .ok n ∧ (n : ℚ) < w.total + 1 / 10 ^ 6 ∧ w.total < n + 1 := by
  have h0 := total_nonneg w
  rw [clean_point _ hw hne]
  unfold durTotal
  by_cases hp : ((numbersOf w).map fun p => (p.1, p.2.text)).any (fun p => p.2.contains '.') = true
  · rw [if_pos hp]
    obtain ⟨us, h1, h2, h3⟩ := micros_near hw
    have h3 := abs_le.1 h3
    have hb : (10 ^ 6 * w.total / 2 ^ 53 : ℚ) ≤ 1 / 4 := by
      rw [div_le_div_iff₀ (by norm_num) (by norm_num)]
      linarith
    have hc : (10 ^ 11 / 2 ^ 53 : ℚ) < 1 / 8 := by norm_num
    have hus : us ≤ 2 ^ 51 := by
      have : (us : ℚ) ≤ 2 ^ 51 := by linarith
      exact_mod_cast this
    rw [h1, if_pos (by omega), seconds_exact h2 (by omega)]
    refine ⟨_, rfl, ?_, ?_⟩
    · have : us / 10 ^ 6 * 10 ^ 6 ≤ us := by omega
      have : ((us / 10 ^ 6 : Int) : ℚ) * 10 ^ 6 ≤ us := by exact_mod_cast this
      linarith
    · have : us + 1 ≤ (us / 10 ^ 6 + 1) * 10 ^ 6 := by omega
      have : (us : ℚ) + 1 ≤ ((us / 10 ^ 6 : Int) + 1) * 10 ^ 6 := by exact_mod_cast this
      linarith
  · rw [if_neg hp]
    obtain ⟨n, hn, e⟩ := nopoint hw (by simpa using hp)
    simp only [e]
    have : (n : ℚ) < 86400 * 10 ^ 9 := by rw [← hn]; linarith
    have hlt : n < 86400 * 10 ^ 9 := by exact_mod_cast this
    rw [if_pos hlt]
    refine ⟨_, rfl, ?_, ?_⟩ <;> rw [hn] <;> push_cast <;> linarith

/-- **C131** (exact): if it stands for a whole number of microseconds — "1.5h", "0.25d", "12.000001s" — it is read as exactly its whole seconds. -/
theorem C131_exact (w : PointWritten) (hw : w.Good) (hne : w.text ≠ []) (m : Nat) (hm : 10 ^ 6 * w.total = m) (hlim : m < 2 ^ 51 - 1) :
    durClean pySeconds (.str w.text) = .ok ((m / 10 ^ 6 : Nat) : Int) := by
  obtain ⟨n, h1, h2, h3⟩ := C131_reads w hw hne (by
    rw [hm]
    have : (m : ℚ) + 1 < 2 ^ 51 := by exact_mod_cast (by omega : m + 1 < 2 ^ 51)
    linarith)
  rw [h1]
  have h2 : (n : ℚ) * 10 ^ 6 < m + 1 := by rw [← hm]; linarith
  have h3 : (m : ℚ) < (n + 1) * 10 ^ 6 := by rw [← hm]; linarith
  have h2 : n * 10 ^ 6 < m + 1 := by exact_mod_cast h2
  have h3 : (m : Int) < (n + 1) * 10 ^ 6 := by exact_mod_cast h3
  congr 1
  omega

/-- **C131** (any length): up to 10^9 days it is read, and off by little more than the fraction of a second that is dropped. -/
theorem C131_far (w : PointWritten) (hw : w.Good) (hne : w.text ≠ []) (hlim : w.total ≤ 86400 * 10 ^ 9 - 1) :
    ∃ n : Int, durClean pySeconds (.str w.text) = .ok n ∧ (n : ℚ) ≤ w.total + 1 / 50 ∧ w.total - 1 - 1 / 50 < n := by
  have h0 := total_nonneg w
  rw [clean_point _ hw hne]
  unfold durTotal
  by_cases hp : ((numbersOf w).map fun p => (p.1, p.2.text)).any (fun p => p.2.contains '.') = true
  · rw [if_pos hp]
    obtain ⟨us, h1, h2, h3⟩ := micros_near hw
    have h3 := abs_le.1 h3
    have hb : (10 ^ 6 * w.total / 2 ^ 53 : ℚ) ≤ 9600 := by
      rw [div_le_iff₀ (by norm_num)]
      linarith
    have hc : (10 ^ 11 / 2 ^ 53 : ℚ) < 1 / 8 := by norm_num
    have hus : us < 86400 * 10 ^ 9 * 10 ^ 6 := by
      have : (us : ℚ) < 86400 * 10 ^ 9 * 10 ^ 6 := by linarith
      exact_mod_cast this
    rw [h1, if_pos hus]
    have hnn : (0 : ℚ) ≤ (us : ℚ) / 10 ^ 6 := by
      have : (0 : ℚ) ≤ us := by exact_mod_cast h2
      positivity
    have hf := abs_le.1 (fl_near hnn)
    have hd : (us : ℚ) / 10 ^ 6 / 2 ^ 53 ≤ 98 / 10 ^ 4 := by
      have : (us : ℚ) ≤ 86400 * 10 ^ 9 * 10 ^ 6 := by exact_mod_cast hus.le
      rw [div_div, div_le_div_iff₀ (by norm_num) (by norm_num)]
      linarith
    have hu : (us : ℚ) / 10 ^ 6 ≤ w.total + 97 / 10 ^ 4 := by
      rw [div_le_iff₀ (by norm_num)]
      linarith
    have hl : w.total - 97 / 10 ^ 4 ≤ (us : ℚ) / 10 ^ 6 := by
      rw [le_div_iff₀ (by norm_num)]
      linarith
    have f1 := Int.floor_le (fl ((us : ℚ) / 10 ^ 6))
    have f2 := Int.lt_floor_add_one (fl ((us : ℚ) / 10 ^ 6))
    refine ⟨_, rfl, ?_, ?_⟩ <;> linarith
  · rw [if_neg hp]
    obtain ⟨n, hn, e⟩ := nopoint hw (by simpa using hp)
    simp only [e]
    have : (n : ℚ) < 86400 * 10 ^ 9 := by rw [← hn]; linarith
    have hlt : n < 86400 * 10 ^ 9 := by exact_mod_cast this
    rw [if_pos hlt]
    refine ⟨_, rfl, ?_, ?_⟩ <;> rw [hn] <;> push_cast <;> linarith

/-- "1.5h.25s". -/
def hourAndHalf : PointWritten := ⟨none, some ⟨"1".toList, some "5".toList⟩, none, some ⟨[], some "25".toList⟩⟩

theorem hourAndHalf_good : hourAndHalf.Good := by
  intro o ho q hq
  simp only [hourAndHalf, List.mem_cons, List.not_mem_nil, or_false] at ho
  rcases ho with rfl | rfl | rfl | rfl
  · cases hq
  · cases hq; exact ⟨by decide, by decide⟩
  · cases hq
  · cases hq; exact ⟨by decide, by decide⟩

example : hourAndHalf.text = "1.5h.25s".toList ∧ 10 ^ 6 * hourAndHalf.total = (5400250000 : Nat) ∧
    durClean pySeconds (.str "1.5h.25s".toList) = .ok 5400 := ⟨by decide, by decide +kernel, by decide +kernel⟩

/-- **C131** (nothing else is read): an accepted text is, once quotes and outer white space are dropped and digits of other scripts replaced, empty, a
number of seconds, or written from days down to seconds, each with at most one point and a digit; it is read as what is left. -/
theorem C131_reads_only (s : Str) (n : Int) (h : durClean pySeconds (.str s) = .ok n) :
    let v := (strip (s.filter fun c => c != '\'' && c != '"')).map asciiDigit
    (v = [] ∧ n = 0) ∨ (Digits v ∧ n = digits v) ∨ ∃ w : PointWritten, w.Good ∧ w.text ≠ [] ∧ v = w.text ∧ durClean pySeconds (.str w.text) = .ok n := by
  intro v
  simp only [durClean] at h
  split at h
  · rename_i h0
    cases h
    rcases h0 with rfl | rfl
    · exact .inr (.inl ⟨by unfold Digits; decide, by decide⟩)
    · exact .inl ⟨by decide, rfl⟩
  · split at h
    · rename_i h1
      cases h
      exact .inr (.inl ⟨(Digits_iff _).2 ⟨h1.1, fun c hc => by simpa using List.all_eq_true.1 h1.2 c hc⟩, by rw [digits_eq]⟩)
    · split at h
      · simp at h
      · rename_i parts hp
        obtain ⟨ps, e1, e2, e3, e4⟩ := durParse_some durUnits _ parts units_not_num hp
        obtain ⟨a, b, c, d, rfl⟩ : ∃ a b c d, ps = partsOf ⟨a, b, c, d⟩ := by
          match ps, e1 with
          | [(_, _, a), (_, _, b), (_, _, c), (_, _, d)], e1 =>
            simp only [durUnits, List.map_cons, List.map_nil, List.cons.injEq, Prod.mk.injEq] at e1
            obtain ⟨⟨rfl, rfl⟩, ⟨rfl, rfl⟩, ⟨rfl, rfl⟩, ⟨rfl, rfl⟩, -⟩ := e1
            exact ⟨a, b, c, d, rfl⟩
        rw [textOf_partsOf] at e3
        have hread : ∀ p ∈ parts, ∃ q : Quantity, q.Good ∧ q.text = p.2 := by
          have hch : ∀ p ∈ parts, p.2 ≠ [] ∧ ∀ c ∈ p.2, isNumCh c = true := by
            rw [← e4]
            intro p hp
            have hm : ∃ u, (u, p.1, some p.2) ∈ partsOf ⟨a, b, c, d⟩ := by
              revert hp
              cases a <;> cases b <;> cases c <;> cases d <;> simp [chosen, partsOf] <;> grind
            obtain ⟨u, hu⟩ := hm
            exact (e2 _ hu).2 p.2 rfl
          intro p hp
          unfold durTotal at h
          by_cases hany : parts.any (fun p => p.2.contains '.') = true
          · rw [if_pos hany] at h
            unfold pySeconds at h
            obtain ⟨qs, hq, -⟩ := bind_ok h
            obtain ⟨y, hy⟩ := mapM_each hq p hp
            obtain ⟨v, hv, -⟩ := bind_ok hy
            exact floatText_ok (hch p hp).2 hv
          · have hno := List.any_eq_false.1 (Bool.eq_false_iff.2 hany) p hp
            have hdot : '.' ∉ p.2 := by simpa using hno
            refine ⟨⟨p.2, none⟩, ⟨fun x hx => ?_, by simpa using (hch p hp).1⟩, rfl⟩
            have hx : x ∈ p.2 := by simpa using hx
            have := (hch p hp).2 x hx
            simp only [isNumCh, Bool.or_eq_true, beq_iff_eq] at this
            have hd := this.resolve_right fun e => hdot (e ▸ hx)
            exact ((Digits_iff [x]).2 ⟨by simp, by simpa using hd⟩).2 x (by simp)
        have hopt : ∀ o ∈ [a, b, c, d], ∃ q : Option Quantity, (∀ x ∈ q, x.Good) ∧ q.map Quantity.text = o := by
          intro o ho
          cases o with
          | none => exact ⟨none, by simp, rfl⟩
          | some ds =>
            have : ∃ n, (n, ds) ∈ parts := by
              rw [← e4]
              revert ho
              cases a <;> cases b <;> cases c <;> cases d <;> simp [chosen, partsOf] <;> grind
            obtain ⟨n, hn⟩ := this
            obtain ⟨q, hq, e⟩ := hread _ hn
            exact ⟨some q, by simpa using hq, by simp [e]⟩
        obtain ⟨qa, ga, rfl⟩ := hopt a (by simp)
        obtain ⟨qb, gb, rfl⟩ := hopt b (by simp)
        obtain ⟨qc, gc, rfl⟩ := hopt c (by simp)
        obtain ⟨qd, gd, rfl⟩ := hopt d (by simp)
        have hw : PointWritten.Good ⟨qa, qb, qc, qd⟩ := by
          intro o ho
          simp only [List.mem_cons, List.not_mem_nil, or_false] at ho
          rcases ho with rfl | rfl | rfl | rfl <;> assumption
        have hv : v = PointWritten.text ⟨qa, qb, qc, qd⟩ := e3.symm
        by_cases hne : v = []
        · refine .inl ⟨hne, ?_⟩
          have hp : durParse durUnits v = some parts := hp
          rw [hne] at hp
          have : parts = [] := (Option.some.inj hp).symm
          rw [this] at h
          exact (Except.ok.inj h).symm
        · refine .inr (.inr ⟨⟨qa, qb, qc, qd⟩, hw, hv ▸ hne, hv, ?_⟩)
          rw [clean_point _ hw (hv ▸ hne), ← chosen_textsOf]
          show durTotal pySeconds (chosen (partsOf ⟨_, _, _, _⟩)) = _
          rw [e4]
          exact h

theorem fold_whole : ∀ (l : List (Nat × Nat)) (S : Int),
    (l.map fun t => (t.1, (t.2 : ℚ))).foldl accumUs (S, 0) = (S + ((l.map fun t => t.1 * t.2).sum : Nat) * 10 ^ 6, 0)
  | [], S => by simp
  | (n, k) :: l, S => by
    have : accumUs (S, 0) (n, (k : ℚ)) = (S + (n * k : Nat) * 10 ^ 6, 0) := by
      unfold accumUs
      simp
      ring
    rw [List.map_cons, List.foldl_cons, this, fold_whole l]
    simp only [List.map_cons, List.sum_cons, Prod.mk.injEq, and_true]
    push_cast
    ring

/-- **C131** (no points): without points, floats and `timedelta` give exactly the whole number that is written, as C69 says, or refuse it from 10^9 days on. -/
theorem C131_whole (w : PointWritten) (hw : w.Good) (h : ∀ p ∈ numbersOf w, p.2.frac = none) :
    pySeconds ((numbersOf w).map fun p => (p.1, p.2.text)) =
      if w.total < 86400 * 10 ^ 9 then .ok ⌊w.total⌋ else .error .overflowError := by
  have hval : ∀ p ∈ numbersOf w, p.2.value = (digits p.2.whole : ℚ) := by
    intro p hp
    simp [Quantity.value, h p hp, digits]
  have hsum : w.total = (((numbersOf w).map fun p => p.1 * digits p.2.whole).sum : Nat) := by
    rw [← termsOf_sum]
    unfold Terms.sum termsOf
    clear h
    generalize numbersOf w = l at hval
    induction l with
    | nil => simp
    | cons p l ih =>
      have := ih fun q hq => hval q (by simp [hq])
      simp only [List.map_cons, List.sum_cons] at this ⊢
      rw [this, hval p (by simp)]
      push_cast
      rfl
  obtain ⟨us, h1, h2, h3⟩ := micros_near hw
  by_cases hbig : ∀ p ∈ numbersOf w, digits p.2.whole < 2 ^ 53
  · unfold pySeconds
    have hm : ((numbersOf w).map fun p => (p.1, p.2.text)).mapM (fun p => (do return (p.1, ← floatText p.2) : Res (Nat × ℚ))) =
        .ok (((numbersOf w).map fun p => (p.1, digits p.2.whole)).map fun t => (t.1, (t.2 : ℚ))) := by
      rw [List.mapM_map, List.map_map]
      refine mapM_ok_of fun p hp => ?_
      show (floatText p.2.text >>= fun v => pure (p.1, v)) = _
      rw [floatText_good (good_numbers hw p hp).2, hval p hp, fl_whole (hbig p hp)]
      rfl
    rw [hm]
    obtain ⟨n, hn⟩ : ∃ n, ((numbersOf w).map fun p => p.1 * digits p.2.whole).sum = n := ⟨_, rfl⟩
    have ht : timedeltaUs (((numbersOf w).map fun p => (p.1, digits p.2.whole)).map fun t => (t.1, (t.2 : ℚ))) = (n : Int) * 10 ^ 6 := by
      unfold timedeltaUs
      rw [← List.map_reverse, fold_whole]
      have : ((((numbersOf w).map fun p => (p.1, digits p.2.whole)).reverse.map fun t => t.1 * t.2).sum) = n := by
        rw [List.map_reverse, List.sum_reverse, List.map_map]
        exact hn
      simp only [this, zero_add, add_zero]
      exact roundEven_int _
    show (if timedeltaUs _ < _ then _ else _) = _
    rw [ht, hsum, hn]
    by_cases hlt : n < 86400 * 10 ^ 9
    · rw [if_pos (by omega), if_pos (by exact_mod_cast hlt)]
      have e : (((n : Int) * 10 ^ 6 : Int) : ℚ) / 10 ^ 6 = (n : ℚ) := by
        push_cast
        field_simp
        ring
      rw [e, fl_whole (by omega)]
      simp [pure, Except.pure]
    · rw [if_neg (by omega), if_neg (by exact_mod_cast hlt)]
      rfl
  · obtain ⟨p, hp, hk⟩ : ∃ p ∈ numbersOf w, 2 ^ 53 ≤ digits p.2.whole := by
      by_contra hne
      exact hbig fun p hp => by
        by_contra hlt
        exact hne ⟨p, hp, by omega⟩
    have hpos : 1 ≤ p.1 := by
      simp only [numbersOf, part, List.mem_append, Option.mem_toList, Option.mem_def, Option.map_eq_some_iff] at hp
      rcases hp with ⟨q, hq, rfl⟩ | ⟨q, hq, rfl⟩ | ⟨q, hq, rfl⟩ | ⟨q, hq, rfl⟩ <;> norm_num
    have hle : 2 ^ 53 ≤ ((numbersOf w).map fun p => p.1 * digits p.2.whole).sum := by
      have := List.single_le_sum (l := (numbersOf w).map fun p => p.1 * digits p.2.whole) (by simp) (p.1 * digits p.2.whole) (List.mem_map_of_mem (f := fun p : Nat × Quantity => p.1 * digits p.2.whole) hp)
      calc 2 ^ 53 ≤ 1 * digits p.2.whole := by omega
        _ ≤ p.1 * digits p.2.whole := Nat.mul_le_mul_right _ hpos
        _ ≤ _ := this
    have ht : (2 ^ 53 : ℚ) ≤ w.total := by rw [hsum]; exact_mod_cast hle
    have h3 := abs_le.1 h3
    have hus : (86400 * 10 ^ 9 * 10 ^ 6 : ℚ) ≤ us := by
      have hd : (10 ^ 6 * w.total / 2 ^ 53 : ℚ) ≤ w.total := by
        rw [div_le_iff₀ (by norm_num)]
        linarith
      have hc : (10 ^ 11 / 2 ^ 53 : ℚ) < 1 / 8 := by norm_num
      linarith
    have hus : 86400 * 10 ^ 9 * 10 ^ 6 ≤ us := by exact_mod_cast hus
    rw [h1, if_neg (by omega), if_neg (by linarith)]

/-- "7d12h". -/
def plainHalf : PointWritten := ⟨some ⟨"7".toList, none⟩, some ⟨"12".toList, none⟩, none, none⟩

theorem plainHalf_good : plainHalf.Good := by
  intro o ho q hq
  simp only [plainHalf, List.mem_cons, List.not_mem_nil, or_false] at ho
  rcases ho with rfl | rfl | rfl | rfl
  · cases hq; exact ⟨by decide, by decide⟩
  · cases hq; exact ⟨by decide, by decide⟩
  · cases hq
  · cases hq

example : (∀ p ∈ numbersOf plainHalf, p.2.frac = none) ∧ plainHalf.total = 648000 := ⟨by decide, by decide +kernel⟩

/-- **C131** (locks): coins sent with a lock given as `+` and a duration with points are locked until that long after the moment the lock was made. -/
theorem C131_lock (H : Bytes → Bytes) (cal : Calendar) (now : Int) (w : PointWritten) (hw : w.Good) (hne : w.text ≠ [])
    (hlim : 10 ^ 6 * w.total < 2 ^ 51 - 1) (hnow : 500000000 ≤ now) (r : Recipient) (l : LockVal) (c : Condition)
    (hl : lockOfText pySeconds cal now ('+' :: w.text) = .ok l) (hc : fromRecipient H r l = .ok c) :
    ∃ n : Int, (n : ℚ) < w.total + 1 / 10 ^ 6 ∧ w.total < n + 1 ∧ ∀ height time : Int, lockedCheck c.lock height time = true ↔ time < now + n := by
  obtain ⟨n, h1, h2, h3⟩ := C131_reads w hw hne hlim
  refine ⟨n, h2, h3, fun height time => ?_⟩
  have h0 := total_nonneg w
  have hn : 0 ≤ n := by
    have : (-1 : ℚ) < n := by linarith
    have : (-1 : Int) < n := by exact_mod_cast this
    omega
  have h : lockText pySeconds cal now ('+' :: w.text) = .ok (now + n) := by
    unfold lockText
    have : lstrip isPySpace ('+' :: w.text) = '+' :: w.text := lstrip_spaces 0 (by decide) _
    rw [this]
    simp only [if_true, h1]
    rfl
  unfold lockOfText at hl
  rw [h] at hl
  cases hl
  unfold fromRecipient at hc
  cases hb : r.base H with
  | error e => rw [hb] at hc; cases hc
  | ok b =>
    rw [hb] at hc
    cases hc
    show lockedCheck (now + n) height time = true ↔ _
    rw [C27_lock_boundary, if_neg (by omega)]

example : lockOfText pySeconds toyCalendar 1570000000 ('+' :: hourAndHalf.text) = .ok (.computed 1570005400) ∧
    fromRecipient toyHash .none (.computed 1570005400) = .ok (.lockTime 1570005400 .nil) := by
  have h : lockText pySeconds toyCalendar 1570000000 ('+' :: hourAndHalf.text) = .ok 1570005400 := by decide +kernel
  refine ⟨?_, by decide⟩
  unfold lockOfText
  rw [h]
  rfl

/-- Finding: fractions of a second are not always dropped: "0.9999999s" is read as one second. -/
theorem C131_dropped_false : ¬ ∀ (w : PointWritten) (n : Int), w.Good → durClean pySeconds (.str w.text) = .ok n → (n : ℚ) ≤ w.total := by
  intro h
  have hg : PointWritten.Good ⟨none, none, none, some ⟨"0".toList, some "9999999".toList⟩⟩ := by
    intro o ho q hq
    simp only [List.mem_cons, List.not_mem_nil, or_false] at ho
    rcases ho with rfl | rfl | rfl | rfl
    · cases hq
    · cases hq
    · cases hq
    · cases hq; exact ⟨by decide, by decide⟩
  exact absurd (h _ 1 hg (by decide +kernel)) (by decide +kernel)

/-- Finding: with a microsecond less than 10^9 days, the fraction that is dropped is rounded up instead. -/
theorem C131_huge_false : ¬ ∀ (w : PointWritten) (n : Int), w.Good → durClean pySeconds (.str w.text) = .ok n → (n : ℚ) < w.total + 1 / 10 ^ 6 := by
  intro h
  have hg : PointWritten.Good ⟨some ⟨"999999999".toList, none⟩, some ⟨"23".toList, none⟩, some ⟨"59".toList, none⟩, some ⟨"59".toList, some "999".toList⟩⟩ := by
    intro o ho q hq
    simp only [List.mem_cons, List.not_mem_nil, or_false] at ho
    rcases ho with rfl | rfl | rfl | rfl <;> (cases hq; exact ⟨by decide, by decide⟩)
  exact absurd (h _ (86400 * 10 ^ 9) hg (by decide +kernel)) (by decide +kernel)

/-! ### A time ago -/

theorem underscored_none {s : Str} (h : '_' ∉ s) : ∀ {p : Char}, p ≠ '_' → underscored p s = some s := by
  induction s with
  | nil => intro p hp; simp [underscored, hp]
  | cons c s ih =>
    intro p hp
    have hc : c ≠ '_' := fun e => h (by simp [e])
    have := ih (fun hm => h (by simp [hm])) hc
    unfold underscored
    split
    · simp_all
    · simp_all
    · simp_all

theorem takeWhile_dig {a : Str} (h : ∀ c ∈ a, isDig c = true) : a.takeWhile isDig = a ∧ a.dropWhile isDig = [] := by
  induction a with
  | nil => exact ⟨rfl, rfl⟩
  | cons x a ih =>
    obtain ⟨e1, e2⟩ := ih (fun c hc => h c (by simp [hc]))
    rw [List.takeWhile_cons, List.dropWhile_cons, h x (by simp)]
    exact ⟨by rw [if_pos rfl, e1], e2⟩

theorem floatNumber_good {q : Quantity} (h : q.Good) : floatNumber q.text = some q.value := by
  obtain ⟨h1, h2⟩ := good_digits h
  obtain ⟨a, o⟩ := q
  cases o with
  | none =>
    obtain ⟨e1, e2⟩ := takeWhile_dig h1
    have hne : a ≠ [] := by simpa [Quantity.Good] using h.2
    simp only [floatNumber, Quantity.text, Quantity.value, e1, e2]
    simp [hne, floatExp, digits_eq, digVal]
  | some f =>
    obtain ⟨e1, e2⟩ := takeWhile_run (p := isDig) (c := '.') h1 (by decide) f
    obtain ⟨e3, e4⟩ := takeWhile_dig (h2 f rfl)
    have hne : ¬ (a = [] ∧ f = []) := by
      rintro ⟨rfl, rfl⟩
      exact h.2 rfl
    simp only [floatNumber, Quantity.text, Quantity.value, e1, e2, e3, e4, if_neg hne, floatExp, Option.map_some, Option.getD_some]
    rw [digVal_app]
    simp only [digits_eq, zpow_zero, mul_one]
    congr 1
    push_cast
    field_simp

theorem digit_or_dot {q : Quantity} (h : q.Good) : ∀ c ∈ q.text, isDig c = true ∨ c = '.' := by
  intro c hc
  have := (quantity_chars h).2 c hc
  simpa [isNumCh] using this

theorem floatStr_minus {q : Quantity} (h : q.Good) : floatStr ('-' :: q.text) = .ok (flSigned (-q.value)) := by
  have hch := digit_or_dot h
  have hmem : ∀ c ∈ '-' :: q.text, c = '-' ∨ c = '.' ∨ isDig c = true := by
    intro c hc
    rcases List.mem_cons.1 hc with rfl | hc
    · exact .inl rfl
    · rcases hch c hc with h | h
      · exact .inr (.inr h)
      · exact .inr (.inl h)
  have hgood : ∀ c ∈ '-' :: q.text, isPySpace c = false ∧ c.toNat < 128 ∧ c ≠ '_' := by
    intro c hc
    rcases hmem c hc with rfl | rfl | h
    · decide
    · decide
    · exact ⟨(written_char (.inl h)).1, isDig_ascii h, fun e => by subst e; exact absurd h (by decide)⟩
  have hs : strip ('-' :: q.text) = '-' :: q.text :=
    strip_eq_self (fun c hc => (hgood c (List.mem_of_mem_head? hc)).1) (fun c hc => (hgood c (List.mem_of_getLast? hc)).1)
  have hm : ('-' :: q.text).map asciiDigit = '-' :: q.text := map_asciiDigit fun c hc => (hgood c hc).2.1
  have hu : underscored '\x00' ('-' :: q.text) = some ('-' :: q.text) :=
    underscored_none (fun hm => (hgood _ hm).2.2 rfl) (by decide)
  have hlow : q.text.map Char.toLower = q.text := by
    conv => rhs; rw [← List.map_id q.text]
    refine List.map_congr_left fun c hc => ?_
    rcases hch c hc with h | rfl
    · have : ¬ (c.val ≥ 65 ∧ c.val ≤ 90) := by
        simp only [isDig, decide_eq_true_eq] at h
        rintro ⟨h1, -⟩
        have : 65 ≤ c.toNat := UInt32.le_iff_toNat_le.1 h1
        omega
      unfold Char.toLower
      grind
    · decide
  have hword : ∀ w : Str, w.head? = some 'i' ∨ w.head? = some 'n' → q.text ≠ w := by
    intro w hw e
    have : ∃ c ∈ q.text, c = 'i' ∨ c = 'n' := by
      rcases hw with hw | hw
      · exact ⟨'i', e ▸ List.mem_of_mem_head? hw, .inl rfl⟩
      · exact ⟨'n', e ▸ List.mem_of_mem_head? hw, .inr rfl⟩
    obtain ⟨c, hc, hc2⟩ := this
    rcases hch c hc with h | h <;> rcases hc2 with rfl | rfl <;> revert h <;> decide
  unfold floatStr
  simp only [hs, hm, hu, hlow]
  rw [if_neg (by rintro (h | h); exacts [hword _ (.inl rfl) h, hword _ (.inl rfl) h]), if_neg (hword _ (.inr rfl)), floatNumber_good h]
  rfl

theorem flSigned_minus {q : ℚ} (h : 0 ≤ q) (hs : q < 2 ^ 50) : flSigned (-q) = .fin (-fl q) := by
  have hf := abs_le.1 (fl_near h)
  have h0 := fl_nonneg h
  have hlt : fl q < 2 ^ 51 := by
    have : q / 2 ^ 53 ≤ q := by
      rw [div_le_iff₀ (by norm_num)]
      nlinarith
    linarith
  have hle : (2 : ℚ) ^ 51 ≤ 2 ^ 1024 := pow_le_pow_right₀ (by norm_num) (by norm_num)
  unfold flSigned
  obtain ⟨B, hB⟩ : ∃ B : ℚ, 2 ^ 1024 = B := ⟨_, rfl⟩
  rw [hB] at hle ⊢
  have hp : (if -q < 0 then -fl (- -q) else fl (-q)) = -fl q := by
    by_cases hz : q = 0
    · subst hz
      simp [fl]
    · have hpos : 0 < q := lt_of_le_of_ne h (Ne.symm hz)
      rw [if_pos (by linarith), neg_neg]
  simp only [hp]
  rw [if_neg]
  rw [abs_neg, abs_of_nonneg h0]
  exact not_le.2 (lt_of_lt_of_le hlt hle)

/-- The whole part of a product. -/
theorem pyDelta_minus {q : Quantity} (h : q.Good) (n : Nat) (hn : 1 ≤ n) (hlim : q.value * n < 2 ^ 40) :
    ∃ m : Int, pyDelta ('-' :: q.text) n = .ok (-m) ∧ (m : ℚ) ≤ q.value * n + 1 / 1000 ∧ q.value * n - 1 / 1000 < m + 1 := by
  have hv := value_nonneg q
  have hn1 : (1 : ℚ) ≤ n := by exact_mod_cast hn
  have hvs : q.value ≤ q.value * n := le_mul_of_one_le_right hv hn1
  have e1 := flSigned_minus hv (by linarith)
  have hfn := fl_nonneg hv
  have hf := abs_le.1 (fl_near hv)
  obtain ⟨p, hp⟩ : ∃ p, fl q.value * n = p := ⟨_, rfl⟩
  have hp0 : 0 ≤ p := by rw [← hp]; positivity
  have hp1 : |p - q.value * n| ≤ 1 / 8192 := by
    rw [← hp, ← sub_mul, abs_mul, abs_of_nonneg (by linarith : (0 : ℚ) ≤ n)]
    calc |fl q.value - q.value| * (n : ℚ) ≤ q.value / 2 ^ 53 * n := by
          have := fl_near hv
          gcongr
      _ = q.value * n / 2 ^ 53 := by ring
      _ ≤ 2 ^ 40 / 2 ^ 53 := by gcongr
      _ = 1 / 8192 := by norm_num
  have hp1 := abs_le.1 hp1
  have e2 := flSigned_minus hp0 (by linarith)
  have hf2 := abs_le.1 (fl_near hp0)
  have hf2n := fl_nonneg hp0
  have hsm : p / 2 ^ 53 ≤ 1 / 4096 := by
    rw [div_le_iff₀ (by norm_num)]
    linarith
  have e3 : -fl q.value * (n : ℚ) = -p := by rw [← hp]; ring
  have f1 := Int.floor_le (fl p)
  have f2 := Int.lt_floor_add_one (fl p)
  refine ⟨⌊fl p⌋, ?_, by linarith, by linarith⟩
  unfold pyDelta
  rw [floatStr_minus h, e1]
  simp only [bind, Except.bind, e3, e2, pure, Except.pure]
  congr 1
  by_cases hz : fl p = 0
  · rw [hz]; simp
  · rw [if_pos (by have := lt_of_le_of_ne hf2n (Ne.symm hz); linarith), neg_neg]

/-- **C131** (a time ago): a lock given as a minus sign, a number with or without a point and a unit is that long before now, up to the second. -/
theorem C131_ago (F : FloatSeconds) (z : Zone) (clock now : Int) (q : Quantity) (h : q.Good) (u : Char) (n : Nat) (hu : AgoUnit u n)
    (hlim : q.value * n < 2 ^ 40) :
    ∃ m : Int, lockText F (calendarAt pyDelta z clock) now ('-' :: (q.text ++ [u])) = .ok (clock - m) ∧
      (m : ℚ) ≤ q.value * n + 1 / 1000 ∧ q.value * n - 1 / 1000 < m + 1 := by
  have hch := digit_or_dot h
  have hlook : timeUnits.lookup u = some n ∧ isPySpace u = false ∧ u ≠ '\'' ∧ u ≠ '"' ∧ 1 ≤ n := by
    have h12 : ∀ n : Nat, 12 * n = 365 * 24 * 60 * 60 → n = 2628000 := by omega
    rcases hu with ⟨rfl, rfl⟩ | ⟨rfl, rfl⟩ | ⟨rfl, rfl⟩ | ⟨rfl, rfl⟩ | ⟨rfl, rfl⟩ | ⟨rfl, h⟩ | ⟨rfl, rfl⟩
    · decide
    · decide
    · decide
    · decide
    · decide
    · rw [h12 n h]; decide
    · decide
  have e := lockText_minus F pyDelta z clock now ('-' :: q.text) hlook.2.1 (fun c hc => by
      rcases List.mem_append.1 hc with hc | hc
      · rcases List.mem_cons.1 hc with rfl | hc
        · decide
        · rcases hch c hc with h | rfl
          · exact ⟨fun e => by subst e; exact absurd h (by decide), fun e => by subst e; exact absurd h (by decide)⟩
          · decide
      · rw [List.mem_singleton.1 hc]
        exact ⟨hlook.2.2.1, hlook.2.2.2.1⟩) (fun c hc => by cases hc; decide) (by simp)
  rw [List.cons_append] at e
  rw [e, hlook.1]
  have hmap : q.text.map asciiDigit = q.text := map_asciiDigit fun c hc => by
    rcases hch c hc with h | rfl
    · exact isDig_ascii h
    · decide
  have key : ∃ m : Int, deltaValue pyDelta ('-' :: q.text) n = .ok (-m) ∧ (m : ℚ) ≤ q.value * n + 1 / 1000 ∧ q.value * n - 1 / 1000 < m + 1 := by
    unfold deltaValue
    simp only [hmap]
    split
    · rename_i hc
      have hval : q.value = digVal q.text := by
        obtain ⟨a, o⟩ := q
        cases o with
        | none => simp [Quantity.value, Quantity.text, digits_eq, digVal]
        | some f =>
          have := List.all_eq_true.1 hc.2.2.1 '.' (by simp [Quantity.text])
          exact absurd this (by decide)
      refine ⟨(digVal q.text * n : Nat), rfl, ?_, ?_⟩ <;> rw [hval] <;> push_cast <;> linarith
    · exact pyDelta_minus h n hlook.2.2.2.2 hlim
  obtain ⟨m, hm, h1, h2⟩ := key
  refine ⟨m, ?_, h1, h2⟩
  simp only [hm]
  rfl

/-- "4.1". -/
def fourPointOne : Quantity := ⟨"4".toList, some "1".toList⟩

example : fourPointOne.Good ∧ AgoUnit 'm' 60 ∧ fourPointOne.value * (60 : Nat) = 246 := ⟨⟨by decide, by decide⟩, .inr (.inl ⟨rfl, rfl⟩), by decide +kernel⟩

/-- Finding: 4.1 minutes are 246 seconds in a duration, and 245 seconds in a time ago. -/
theorem C131_ago_false : ¬ ∀ (F : FloatSeconds) (z : Zone) (clock now : Int) (q : Quantity) (u : Char) (n : Nat), q.Good → AgoUnit u n →
    lockText F (calendarAt pyDelta z clock) now ('-' :: (q.text ++ [u])) = .ok (clock - ⌊q.value * n⌋) := by
  intro h
  have := h (fun _ => .error .valueError) (fixedZone 0) 1570000000 0 fourPointOne 'm' 60 ⟨by decide, by decide⟩ (.inr (.inl ⟨rfl, rfl⟩))
  have e : (fourPointOne.value * (60 : Nat) : ℚ) = 246 := by decide +kernel
  rw [e] at this
  have e2 : ⌊(246 : ℚ)⌋ = 246 := by norm_num
  rw [e2] at this
  exact absurd this (by decide +kernel)

end TF.Props
