import Verif.Lemmas.Duration
import Verif.Props.Conditions
import Verif.Props.Amount
/-! # C69, C101: durations and time locks given as text -/
namespace TF.Props
open TF Spec

/-! ## Helpers -/

/-- The parts of a written duration. -/
def partsOf (w : Written) : List (Char × Nat × Option Str) :=
  [('d', 86400, w.days), ('h', 3600, w.hours), ('m', 60, w.minutes), ('s', 1, w.seconds)]

theorem textOf_partsOf (w : Written) : textOf (partsOf w) = w.text := by
  simp [textOf, partsOf, Written.text]

theorem num_of_dig {c : Char} (h : isDig c = true) : isNumCh c = true := by simp [isNumCh, h]

theorem units_not_num : ∀ u ∈ durUnits, isNumCh u.1 = false := by decide

theorem good_partsOf {w : Written} (hw : w.Good) : GoodParts (partsOf w) := by
  have key : ∀ o ∈ [w.days, w.hours, w.minutes, w.seconds], ∀ ds, o = some ds → ds ≠ [] ∧ ∀ c ∈ ds, isNumCh c = true := by
    intro o ho ds e
    obtain ⟨h1, h2⟩ := (Digits_iff ds).1 (hw o ho ds e)
    exact ⟨h1, fun c hc => num_of_dig (h2 c hc)⟩
  intro p hp
  simp only [partsOf, List.mem_cons, List.not_mem_nil, or_false] at hp
  rcases hp with rfl | rfl | rfl | rfl
  · exact ⟨by show isNumCh 'd' = false; decide, key _ (by simp)⟩
  · exact ⟨by show isNumCh 'h' = false; decide, key _ (by simp)⟩
  · exact ⟨by show isNumCh 'm' = false; decide, key _ (by simp)⟩
  · exact ⟨by show isNumCh 's' = false; decide, key _ (by simp)⟩

theorem parse_written {w : Written} (hw : w.Good) : durParse durUnits w.text = some (chosen (partsOf w)) := by
  rw [← textOf_partsOf]
  exact durParse_text (partsOf w) (good_partsOf hw) (by show ['d', 'h', 'm', 's'].Nodup; decide)

theorem sum_chosen (w : Written) : ((chosen (partsOf w)).map fun p => p.1 * digVal p.2).sum = w.total := by
  obtain ⟨a, b, c, d⟩ := w
  cases a <;> cases b <;> cases c <;> cases d <;> simp [chosen, partsOf, Written.total, unitCount, digits_eq, Nat.add_assoc]

theorem chosen_plain {w : Written} (hw : w.Good) : (chosen (partsOf w)).any (fun p => p.2.contains '.') = false := by
  have key : ∀ o ∈ [w.days, w.hours, w.minutes, w.seconds], ∀ ds ∈ o, '.' ∉ ds := by
    intro o ho ds hds hm
    have := ((Digits_iff ds).1 (hw o ho ds hds)).2 '.' hm
    exact absurd this (by decide)
  obtain ⟨a, b, c, d⟩ := w
  have ka := key a (by simp)
  have kb := key b (by simp)
  have kc := key c (by simp)
  have kd := key d (by simp)
  cases a <;> cases b <;> cases c <;> cases d <;> simp_all [chosen, partsOf]

theorem text_chars {w : Written} (hw : w.Good) : ∀ c ∈ w.text, isDig c = true ∨ c = 'd' ∨ c = 'h' ∨ c = 'm' ∨ c = 's' := by
  have key : ∀ o ∈ [w.days, w.hours, w.minutes, w.seconds], ∀ u, ∀ c ∈ unitText u o, isDig c = true ∨ c = u := by
    intro o ho u c hc
    cases o with
    | none => simp [unitText] at hc
    | some ds =>
      rcases List.mem_append.1 hc with hc | hc
      · exact .inl (((Digits_iff ds).1 (hw _ ho ds rfl)).2 c hc)
      · exact .inr (by simpa using hc)
  intro c hc
  simp only [Written.text, List.mem_append] at hc
  rcases hc with hc | hc | hc | hc
  · rcases key _ (by simp) _ c hc with h | h
    · exact .inl h
    · exact .inr (.inl h)
  · rcases key _ (by simp) _ c hc with h | h
    · exact .inl h
    · exact .inr (.inr (.inl h))
  · rcases key _ (by simp) _ c hc with h | h
    · exact .inl h
    · exact .inr (.inr (.inr (.inl h)))
  · rcases key _ (by simp) _ c hc with h | h
    · exact .inl h
    · exact .inr (.inr (.inr (.inr h)))

/-- None of the characters of a written duration is removed. -/
theorem written_char {c : Char} (h : isDig c = true ∨ c = 'd' ∨ c = 'h' ∨ c = 'm' ∨ c = 's') :
    isPySpace c = false ∧ c ≠ '\'' ∧ c ≠ '"' := by
  rcases h with h | rfl | rfl | rfl | rfl
  · have hd := h
    simp only [isDig, decide_eq_true_eq] at h
    refine ⟨?_, fun e => by subst e; exact absurd hd (by decide), fun e => by subst e; exact absurd hd (by decide)⟩
    simp only [isPySpace, Bool.or_eq_false_iff, Bool.and_eq_false_iff, decide_eq_false_iff_not, beq_eq_false_iff_ne, ne_eq]
    omega
  all_goals decide

theorem written_ascii {c : Char} (h : isDig c = true ∨ c = 'd' ∨ c = 'h' ∨ c = 'm' ∨ c = 's') : c.toNat < 128 := by
  rcases h with h | rfl | rfl | rfl | rfl
  · exact isDig_ascii h
  all_goals decide

/-- Only a digit becomes another character. -/
theorem asciiDigit_dot {c : Char} (h : asciiDigit c = '.') : c = '.' := by
  unfold asciiDigit at h
  split at h
  · exact h
  · split at h
    · rename_i z hz
      have := List.find?_some hz
      simp only [decide_eq_true_eq] at this
      have hk : c.toNat - z < 10 := by omega
      generalize c.toNat - z = k at h hk
      have : ∀ k < 10, Char.ofNat (48 + k) ≠ '.' := by decide
      exact absurd h (this k hk)
    · exact h

theorem cleaned_written {s : Str} (h : ∀ c ∈ s, isDig c = true ∨ c = 'd' ∨ c = 'h' ∨ c = 'm' ∨ c = 's') :
    (strip (s.filter fun c => c != '\'' && c != '"')).map asciiDigit = s := by
  have : s.filter (fun c => c != '\'' && c != '"') = s := by
    rw [List.filter_eq_self]
    intro c hc
    have := written_char (h c hc)
    simp [this.2.1, this.2.2]
  rw [this, strip_eq_self (fun c hc => (written_char (h c (List.mem_of_mem_head? hc))).1) (fun c hc => (written_char (h c (List.mem_of_getLast? hc))).1)]
  exact map_asciiDigit fun c hc => written_ascii (h c hc)

/-- The last character of a duration that mentions a unit is a unit. -/
theorem text_not_digits {w : Written} (hne : w.text ≠ []) : w.text.all isDig = false := by
  have key : ∀ (u : Char) (o : Option Str), isDig u = false → unitText u o ≠ [] → ∃ c ∈ unitText u o, isDig c = false := by
    intro u o hu ho
    cases o with
    | none => simp [unitText] at ho
    | some ds => exact ⟨u, by simp [unitText], hu⟩
  have : ∃ c ∈ w.text, isDig c = false := by
    simp only [Written.text, ne_eq, List.append_eq_nil_iff, not_and] at hne
    simp only [Written.text, List.mem_append]
    by_cases h1 : unitText 'd' w.days = []
    · by_cases h2 : unitText 'h' w.hours = []
      · by_cases h3 : unitText 'm' w.minutes = []
        · obtain ⟨c, hc, h⟩ := key 's' w.seconds (by decide) (fun h4 => hne h1 h2 h3 h4)
          exact ⟨c, .inr (.inr (.inr hc)), h⟩
        · obtain ⟨c, hc, h⟩ := key 'm' w.minutes (by decide) h3
          exact ⟨c, .inr (.inr (.inl hc)), h⟩
      · obtain ⟨c, hc, h⟩ := key 'h' w.hours (by decide) h2
        exact ⟨c, .inr (.inl hc), h⟩
    · obtain ⟨c, hc, h⟩ := key 'd' w.days (by decide) h1
      exact ⟨c, .inl hc, h⟩
  obtain ⟨c, hc, h⟩ := this
  rw [List.all_eq_false]
  exact ⟨c, hc, by simp [h]⟩

theorem dropWhile_mem {p : Char → Bool} {s : Str} {c : Char} (h : c ∈ s.dropWhile p) : c ∈ s := (List.dropWhile_suffix p).subset h

theorem strip_mem {s : Str} {c : Char} (h : c ∈ strip s) : c ∈ s := by
  unfold strip rstrip lstrip at h
  exact dropWhile_mem (List.mem_reverse.1 (dropWhile_mem (List.mem_reverse.1 h)))

/-! ## C69 -/

/-- **C69** (reading): a text like "2d8h5m20s" — any of the units, from days down to seconds, each with any digits — is read as exactly that many
seconds; from 10^9 days on it is refused. -/
theorem C69_reads (F : FloatSeconds) (w : Written) (hw : w.Good) (hne : w.text ≠ []) :
    durClean F (.str w.text) = if w.total < 86400 * 10 ^ 9 then .ok (w.total : Int) else .error .overflowError := by
  have hz : ¬ (w.text = ['0'] ∨ w.text = []) := by
    rintro (h | h)
    · have := text_not_digits hne
      rw [h] at this
      exact absurd this (by decide)
    · exact hne h
  simp only [durClean, if_neg hz, cleaned_written (text_chars hw), text_not_digits hne, parse_written hw, durTotal, chosen_plain hw, sum_chosen]
  simp

/-- "7d12h". -/
def sevenAndHalf : Written := ⟨some ['7'], some ['1', '2'], none, none⟩

theorem sevenAndHalf_good : sevenAndHalf.Good := by
  simp only [Written.Good, sevenAndHalf, Digits]
  decide

example : sevenAndHalf.Good ∧ sevenAndHalf.text = "7d12h".toList ∧ sevenAndHalf.total = 648000 := ⟨sevenAndHalf_good, by decide, by decide⟩

/-- A text of digits only is a number of seconds. -/
theorem C69_reads_seconds (F : FloatSeconds) (s : Str) (hs : Digits s) : durClean F (.str s) = .ok (digits s : Int) := by
  obtain ⟨h1, h2⟩ := (Digits_iff s).1 hs
  rw [digits_eq]
  by_cases h0 : s = ['0']
  · subst h0; rfl
  · have : ¬ (s = ['0'] ∨ s = []) := by rintro (h | h) <;> contradiction
    simp only [durClean, if_neg this, cleaned_written (fun c hc => .inl (h2 c hc))]
    rw [if_pos ⟨h1, by simpa using h2⟩]

example : Digits "0090".toList ∧ digits "0090".toList = 90 := ⟨by unfold Digits; decide, by decide⟩

/-- **C69** (nothing else is read): an accepted text without decimal points is, once quotes and outer white space are dropped and digits of other scripts
replaced, empty, a number of
seconds, or written from days down to seconds; and it stands for that many seconds. -/
theorem C69_reads_only (F : FloatSeconds) (s : Str) (n : Int) (hdot : '.' ∉ s) (h : durClean F (.str s) = .ok n) :
    let v := (strip (s.filter fun c => c != '\'' && c != '"')).map asciiDigit
    (v = [] ∧ n = 0) ∨ (Digits v ∧ n = digits v) ∨ ∃ w : Written, w.Good ∧ v = w.text ∧ n = w.total := by
  intro v
  simp only [durClean] at h
  split at h
  · rename_i h0
    cases h
    rcases h0 with rfl | rfl
    · exact .inr (.inl ⟨by unfold Digits; decide, by decide⟩)
    · exact .inl ⟨by decide, rfl⟩
  · split at h
    · rename_i h1
      cases h
      exact .inr (.inl ⟨(Digits_iff _).2 ⟨h1.1, fun c hc => by simpa using List.all_eq_true.1 h1.2 c hc⟩, by rw [digits_eq]⟩)
    · split at h
      · simp at h
      · rename_i parts hp
        obtain ⟨ps, e1, e2, e3, e4⟩ := durParse_some durUnits _ parts units_not_num hp
        have hvs : '.' ∈ v → '.' ∈ s := fun hc => by
          obtain ⟨c, hc, he⟩ := List.mem_map.1 hc
          rw [asciiDigit_dot he] at hc
          exact (List.mem_filter.1 (strip_mem hc)).1
        obtain ⟨a, b, c, d, rfl⟩ : ∃ a b c d, ps = partsOf ⟨a, b, c, d⟩ := by
          match ps, e1 with
          | [(_, _, a), (_, _, b), (_, _, c), (_, _, d)], e1 =>
            simp only [durUnits, List.map_cons, List.map_nil, List.cons.injEq, Prod.mk.injEq] at e1
            obtain ⟨⟨rfl, rfl⟩, ⟨rfl, rfl⟩, ⟨rfl, rfl⟩, ⟨rfl, rfl⟩, -⟩ := e1
            exact ⟨a, b, c, d, rfl⟩
        rw [textOf_partsOf] at e3
        have hw : Written.Good ⟨a, b, c, d⟩ := by
          have key : ∀ u n o, (u, n, o) ∈ partsOf ⟨a, b, c, d⟩ → ∀ ds ∈ o, (∀ x ∈ ds, x ∈ v) → Digits ds := by
            intro u n o ho ds hds hsub
            obtain ⟨h1, h2⟩ := (e2 _ ho).2 ds hds
            refine (Digits_iff ds).2 ⟨h1, fun x hx => ?_⟩
            have := h2 x hx
            simp only [isNumCh, Bool.or_eq_true, beq_iff_eq] at this
            rcases this with h | rfl
            · exact h
            · exact absurd (hvs (hsub _ hx)) hdot
          have hv : v = Written.text ⟨a, b, c, d⟩ := e3.symm
          have sub : ∀ u o, (∀ x ∈ unitText u o, x ∈ v) → ∀ ds ∈ o, ∀ x ∈ ds, x ∈ v := by
            intro u o h ds hds x hx
            cases hds
            exact h x (by simp [unitText, hx])
          intro o ho
          simp only [List.mem_cons, List.not_mem_nil, or_false] at ho
          rcases ho with rfl | rfl | rfl | rfl
          · exact fun ds hds => key 'd' 86400 _ (by simp [partsOf]) ds hds (sub 'd' _ (fun x hx => by rw [hv]; simp [Written.text, hx]) ds hds)
          · exact fun ds hds => key 'h' 3600 _ (by simp [partsOf]) ds hds (sub 'h' _ (fun x hx => by rw [hv]; simp [Written.text, hx]) ds hds)
          · exact fun ds hds => key 'm' 60 _ (by simp [partsOf]) ds hds (sub 'm' _ (fun x hx => by rw [hv]; simp [Written.text, hx]) ds hds)
          · exact fun ds hds => key 's' 1 _ (by simp [partsOf]) ds hds (sub 's' _ (fun x hx => by rw [hv]; simp [Written.text, hx]) ds hds)
        rw [← e4, durTotal, chosen_plain hw, sum_chosen] at h
        simp only [Bool.false_eq_true, if_false] at h
        split at h
        · cases h
          exact .inr (.inr ⟨_, hw, e3.symm, rfl⟩)
        · simp at h

example : '.' ∉ " '7d12h'".toList ∧ durClean (fun _ => .error .valueError) (.str " '7d12h'".toList) = .ok 648000 := ⟨by decide, by decide +kernel⟩

/-- A number of units, if it is not zero. -/
def mention (n : Nat) : Option Str := if n = 0 then none else some (natStr n)

theorem mention_text (n : Nat) (u : Char) : durPart (n : Int) u = unitText u (mention n) := by
  unfold durPart mention
  by_cases h : n = 0
  · subst h; rfl
  · rw [if_pos (by omega), if_neg h]
    show intStr n ++ [u] = natStr n ++ [u]
    unfold intStr
    rw [if_neg (by omega)]
    rfl

theorem mention_count (n : Nat) : unitCount (mention n) = n := by
  unfold mention
  split
  · next h => rw [h]; rfl
  · show digits (natStr n) = n
    rw [digits_eq, digVal_natStr]

theorem mention_good (n : Nat) : ∀ ds ∈ mention n, Digits ds := by
  intro ds h
  unfold mention at h
  split at h
  · cases h
  · cases h
    exact (Digits_iff _).2 ⟨natStr_ne_nil n, natStr_digits n⟩

/-- How a number of seconds is written. -/
def written (n : Nat) : Written :=
  ⟨mention (n / 86400), mention (n % 86400 / 3600), mention (n % 86400 % 3600 / 60), mention (n % 86400 % 3600 % 60)⟩

theorem written_good (n : Nat) : (written n).Good := by
  intro o ho
  simp only [written, List.mem_cons, List.not_mem_nil, or_false] at ho
  rcases ho with rfl | rfl | rfl | rfl <;> exact mention_good _

theorem written_total (n : Nat) : (written n).total = n := by
  simp only [written, Written.total, mention_count]
  omega

theorem durString_written (F : FloatSeconds) (a : DurArg) (n : Nat) (h : durClean F a = .ok (n : Int)) (h0 : n ≠ 0) : durString F a = .ok (written n).text := by
  have e0 : ((n : Int) = 0) = False := by simp [h0]
  have e1 : (n : Int) / 86400 = ((n / 86400 : Nat) : Int) := by omega
  have e2 : ((n : Int) - ((n / 86400 : Nat) : Int) * 86400) / 3600 = ((n % 86400 / 3600 : Nat) : Int) := by omega
  have e3 : ((n : Int) - ((n / 86400 : Nat) : Int) * 86400 - ((n % 86400 / 3600 : Nat) : Int) * 3600) / 60 = ((n % 86400 % 3600 / 60 : Nat) : Int) := by omega
  have e4 : (n : Int) - ((n / 86400 : Nat) : Int) * 86400 - ((n % 86400 / 3600 : Nat) : Int) * 3600 - ((n % 86400 % 3600 / 60 : Nat) : Int) * 60 =
      ((n % 86400 % 3600 % 60 : Nat) : Int) := by omega
  unfold durString
  rw [h]
  show (if (n : Int) = 0 then (.ok [] : Res Str) else _) = _
  rw [if_neg (by omega), e1, e2, e3, e4]
  simp only [mention_text]
  simp [Written.text, written, pure, Except.pure]

/-- **C69** (partial): a duration of at least zero and less than 10^9 days, however it was given, is printed as a text that reads back as the same number of
seconds. Missing: negative durations and durations from 10^9 days on, see `C69_negative_false` and `C69_huge_false`. -/
theorem C69_roundtrip_partial (F : FloatSeconds) (a : DurArg) (v : Int) (h : durClean F a = .ok v) (h0 : 0 ≤ v) (h1 : v < 86400 * 10 ^ 9) :
    ∃ s, durString F a = .ok s ∧ durClean F (.str s) = .ok v := by
  obtain ⟨n, rfl⟩ := Int.eq_ofNat_of_zero_le h0
  by_cases hn : n = 0
  · subst hn
    refine ⟨[], ?_, rfl⟩
    unfold durString
    rw [h]
    rfl
  · refine ⟨(written n).text, durString_written F a n h hn, ?_⟩
    have hne : (written n).text ≠ [] := by
      intro e
      have hr := parse_written (written_good n)
      rw [e] at hr
      have e2 := sum_chosen (written n)
      rw [← Option.some.inj (show some ([] : List (Nat × Str)) = _ from hr), written_total] at e2
      exact hn e2.symm
    rw [C69_reads F _ (written_good n) hne, written_total, if_pos (by omega)]

example : durClean (fun _ => .error .valueError) (.str "90061".toList) = .ok 90061 ∧
    durString (fun _ => .error .valueError) (.int 90061) = .ok "1d1h1m1s".toList := ⟨by decide +kernel, by decide +kernel⟩

/-- Finding: a negative duration is printed as another, positive one: -1 second as "23h59m59s". -/
theorem C69_negative_false : ¬ ∀ (F : FloatSeconds) (v : Int) (s : Str), v < 86400 * 10 ^ 9 → durString F (.int v) = .ok s → durClean F (.str s) = .ok v := by
  intro h
  have := h (fun _ => .error .valueError) (-1) "23h59m59s".toList (by decide) (by decide +kernel)
  exact absurd this (by decide +kernel)

/-- Finding: a duration of 10^9 days is printed as a text that cannot be read. -/
theorem C69_huge_false : ¬ ∀ (F : FloatSeconds) (v : Int) (s : Str), 0 ≤ v → durString F (.int v) = .ok s → durClean F (.str s) = .ok v := by
  intro h
  have := h (fun _ => .error .valueError) (86400 * 10 ^ 9) "1000000000d".toList (by decide) (by decide +kernel)
  exact absurd this (by decide +kernel)

/-! ## C101 -/

theorem lstrip_spaces (n : Nat) {c : Char} (hc : isPySpace c = false) (s : Str) : lstrip isPySpace (List.replicate n ' ' ++ c :: s) = c :: s := by
  induction n with
  | zero => simp [lstrip, hc]
  | succ n ih =>
    have : isPySpace ' ' = true := by decide
    simpa [lstrip, List.replicate_succ, this] using ih

theorem durClean_space (F : FloatSeconds) (n : Nat) (w : Written) (hw : w.Good) (hne : w.text ≠ []) :
    durClean F (.str (List.replicate n ' ' ++ w.text)) = durClean F (.str w.text) := by
  cases n with
  | zero => rfl
  | succ n =>
    have hch := text_chars hw
    have hf : (List.replicate (n + 1) ' ' ++ w.text).filter (fun c => c != '\'' && c != '"') = List.replicate (n + 1) ' ' ++ w.text := by
      rw [List.filter_eq_self]
      intro c hc
      rcases List.mem_append.1 hc with hc | hc
      · rw [List.eq_of_mem_replicate hc]; decide
      · have := written_char (hch c hc)
        simp [this.2.1, this.2.2]
    have hs : strip (List.replicate (n + 1) ' ' ++ w.text) = w.text := by
      have := strip_spaces (n + 1) 0 hne (fun c hc => (written_char (hch c (List.mem_of_mem_head? hc))).1) (fun c hc => (written_char (hch c (List.mem_of_getLast? hc))).1)
      simpa using this
    have hz : ¬ (List.replicate (n + 1) ' ' ++ w.text = ['0'] ∨ List.replicate (n + 1) ' ' ++ w.text = []) := by
      simp [List.replicate_succ]
    have hz' : ¬ (w.text = ['0'] ∨ w.text = []) := by
      rintro (h | h)
      · have := text_not_digits hne
        rw [h] at this
        exact absurd this (by decide)
      · exact hne h
    simp only [durClean, if_neg hz, if_neg hz', hf, hs, cleaned_written hch, map_asciiDigit fun c hc => written_ascii (hch c hc)]

/-- **C101** (durations): a lock given as `+` and a duration, with any spaces around the `+`, is the current time plus that many seconds. -/
theorem C101_duration (F : FloatSeconds) (cal : Calendar) (now : Int) (a b : Nat) (w : Written) (hw : w.Good) (hne : w.text ≠ []) (hlim : w.total < 86400 * 10 ^ 9) :
    lockText F cal now (List.replicate a ' ' ++ '+' :: (List.replicate b ' ' ++ w.text)) = .ok (now + w.total) := by
  unfold lockText
  rw [lstrip_spaces a (by decide)]
  simp only [if_true, durClean_space F b w hw hne, C69_reads F w hw hne, if_pos hlim]
  rfl

example : " + 7d12h".toList = List.replicate 1 ' ' ++ '+' :: (List.replicate 1 ' ' ++ sevenAndHalf.text) ∧ sevenAndHalf.text ≠ [] ∧
    sevenAndHalf.total < 86400 * 10 ^ 9 := ⟨by decide, by decide, by decide⟩


/-! ### Dates -/

theorem splitAll_no {c : Char} {s : Str} (h : c ∉ s) : splitAll c s = [s] := by
  induction s with
  | nil => rfl
  | cons x s ih =>
    have hx : x ≠ c := fun e => h (by simp [e])
    rw [splitAll, if_neg hx, ih (fun hm => h (by simp [hm]))]

theorem splitAll_app {c : Char} {a : Str} (h : c ∉ a) (r : Str) : splitAll c (a ++ c :: r) = a :: splitAll c r := by
  induction a with
  | nil => rw [List.nil_append, splitAll, if_pos rfl]
  | cons x a ih =>
    have hx : x ≠ c := fun e => h (by simp [e])
    rw [List.cons_append, splitAll, if_neg hx, ih (fun hm => h (by simp [hm]))]

theorem splitFirst_app {a : Str} (h : ' ' ∉ a) (r : Str) : splitFirst (a ++ ' ' :: r) = some (a, r) := by
  induction a with
  | nil => rfl
  | cons x a ih =>
    have hx : x ≠ ' ' := fun e => h (by simp [e])
    rw [List.cons_append, splitFirst, if_neg hx, ih (fun hm => h (by simp [hm]))]
    rfl

/-- No digit. -/
theorem not_digit_mem {s : Str} (h : Digits s) {c : Char} (hc : isDig c = false) : c ∉ s := by
  intro hm
  rw [((Digits_iff s).1 h).2 c hm] at hc
  cases hc

theorem digits_strip {s : Str} (h : Digits s) : strip s = s := by
  have h2 := ((Digits_iff s).1 h).2
  exact strip_eq_self (fun c hc => (written_char (.inl (h2 c (List.mem_of_mem_head? hc)))).1) (fun c hc => (written_char (.inl (h2 c (List.mem_of_getLast? hc)))).1)

theorem oneOrTwo_short {s : Str} (h : OneOrTwo s) : short s = true := by
  obtain ⟨h1, h2⟩ := h
  have : s.length ≠ 0 := by
    have := h1.1
    intro e
    exact this (List.length_eq_zero_iff.1 e)
  have : s.length = 2 ∨ s.length = 1 := by omega
  simp [short, this]

theorem oneOrTwo_not_four {s : Str} (h : OneOrTwo s) : s.length ≠ 4 := by have := h.2; omega

/-- The characters of a day. -/
def dayChar (c : Char) : Prop := isDig c = true ∨ c = '/'

theorem day_head {s : Str} (hs : Digits s) (r : Str) : ∃ c r', s ++ r = c :: r' ∧ isDig c = true := by
  obtain ⟨h1, h2⟩ := (Digits_iff s).1 hs
  cases s with
  | nil => exact absurd rfl h1
  | cons c s => exact ⟨c, s ++ r, rfl, h2 c (by simp)⟩

theorem day_last {s : Str} (hs : Digits s) (r : Str) : ∀ c, (r ++ s).getLast? = some c → isDig c = true := by
  obtain ⟨h1, h2⟩ := (Digits_iff s).1 hs
  intro c hc
  rw [List.getLast?_append_of_ne_nil _ h1] at hc
  exact h2 c (List.mem_of_getLast? hc)

theorem dateProcess_good (cal : Calendar) {d : DayText} (hd : d.Good) : dateProcess cal d.text = .ok (d.meaning cal.year) := by
  have nd : ∀ {s : Str}, Digits s → '/' ∉ s := fun h => not_digit_mem h (by decide)
  have three : ∀ {a b c : Str}, Digits a → Digits b → Digits c → splitAll '/' (a ++ '/' :: (b ++ '/' :: c)) = [a, b, c] := by
    intro a b c ha hb hc
    rw [splitAll_app (nd ha), splitAll_app (nd hb), splitAll_no (nd hc)]
  cases d with
  | ymd y m d =>
    obtain ⟨h1, h2, h3⟩ := hd
    have hc : (y ++ '/' :: (m ++ '/' :: d)).contains '/' = true := by simp
    simp only [DayText.text, dateProcess, hc, three h1.1 h2.1 h3.1, digits_strip h1.1, digits_strip h2.1, digits_strip h3.1, h1.2, oneOrTwo_short h2, oneOrTwo_short h3]
    rfl
  | dmy d m y =>
    obtain ⟨h1, h2, h3⟩ := hd
    have hc : (d ++ '/' :: (m ++ '/' :: y)).contains '/' = true := by simp
    simp only [DayText.text, dateProcess, hc, three h1.1 h2.1 h3.1, digits_strip h1.1, digits_strip h2.1, digits_strip h3.1, h3.2, oneOrTwo_short h2, oneOrTwo_short h1,
      oneOrTwo_not_four h1]
    rfl
  | shortYear y m d =>
    obtain ⟨h1, h2, h3⟩ := hd
    have hc : (y ++ '/' :: (m ++ '/' :: d)).contains '/' = true := by simp
    simp only [DayText.text, dateProcess, hc, three h1.1 h2.1 h3.1, digits_strip h1.1, digits_strip h2.1, digits_strip h3.1, oneOrTwo_short h2, oneOrTwo_short h3, oneOrTwo_short h1,
      oneOrTwo_not_four h1, oneOrTwo_not_four h3]
    rfl
  | thisYear m d =>
    obtain ⟨h1, h2⟩ := hd
    have hc : (m ++ '/' :: d).contains '/' = true := by simp
    have hs : strip (m ++ '/' :: d) = m ++ '/' :: d := by
      refine strip_eq_self (fun c hc => ?_) (fun c hc => ?_)
      · obtain ⟨c', r', e, hc'⟩ := day_head h1.1 ('/' :: d)
        rw [e] at hc
        cases hc
        exact (written_char (.inl hc')).1
      · exact (written_char (.inl (day_last h2.1 (m ++ ['/']) c (by simpa using hc)))).1
    simp only [DayText.text, dateProcess, hc, splitAll_app (nd h1.1), splitAll_no (nd h2.1), hs]
    simp [DayText.meaning]

theorem hasHalf_no {s : Str} (h : ∀ c ∈ s, c ≠ 'm' ∧ c ≠ 'M') : hasHalf s = false := by
  induction s with
  | nil => rfl
  | cons x s ih =>
    cases s with
    | nil => rfl
    | cons y s =>
      have h1 := h y (by simp)
      rw [hasHalf, ih (fun c hc => h c (by simp [hc]))]
      simp [h1.1, h1.2]

/-- The characters of a clock text. -/
theorem clock_chars {c : Char} (h : isDig c = true ∨ c = ':') : c ≠ 'm' ∧ c ≠ 'M' := by
  rcases h with h | rfl
  · exact ⟨fun e => by subst e; exact absurd h (by decide), fun e => by subst e; exact absurd h (by decide)⟩
  · decide

/-- A text that contains `am` or `pm`. -/
theorem hasHalf_yes {x : Str} (hx : HalfDay x) (h r : Str) : hasHalf (h ++ (x ++ r)) = true := by
  have base : hasHalf (x ++ r) = true := by
    simp only [HalfDay, List.map_cons, List.map_nil, List.mem_cons, List.not_mem_nil, or_false] at hx
    rcases hx with rfl | rfl | rfl | rfl | rfl | rfl | rfl | rfl <;> rfl
  induction h with
  | nil => exact base
  | cons c h ih =>
    cases e : h ++ (x ++ r) with
    | nil => rw [e] at ih; cases ih
    | cons d rest =>
      rw [e] at ih
      rw [List.cons_append, e, hasHalf, ih]
      simp

/-- The letters of `am` and `pm`. -/
def halfCh (c : Char) : Prop := c ∈ ['a', 'A', 'p', 'P', 'm', 'M']

theorem half_chars {x : Str} (hx : HalfDay x) : ∀ c ∈ x, halfCh c := by
  simp only [HalfDay, List.map_cons, List.map_nil, List.mem_cons, List.not_mem_nil, or_false] at hx
  unfold halfCh
  rcases hx with rfl | rfl | rfl | rfl | rfl | rfl | rfl | rfl <;> decide

theorem half_no {x : Str} (hx : HalfDay x) {h : Str} (hh : Digits h) : ':' ∉ h ++ x := by
  intro hm
  rcases List.mem_append.1 hm with hm | hm
  · exact not_digit_mem hh (by decide) hm
  · exact absurd (half_chars hx _ hm) (by unfold halfCh; decide)

theorem timeProcess_good {t : ClockText} (ht : t.Good) : timeProcess (t.text.drop 1) = .ok t.meaning := by
  have nd : ∀ {s : Str}, Digits s → ':' ∉ s := fun h => not_digit_mem h (by decide)
  have dd : ∀ {s : Str}, Digits s → ∀ c ∈ s, isDig c = true := fun h => ((Digits_iff _).1 h).2
  cases t with
  | midnight => decide
  | hm h m =>
    obtain ⟨h1, h2⟩ := ht
    have hs : strip (h ++ ':' :: m) = h ++ ':' :: m := by
      refine strip_eq_self (fun c hc => ?_) (fun c hc => ?_)
      · obtain ⟨c', r', e, hc'⟩ := day_head h1 (':' :: m)
        rw [e] at hc
        cases hc
        exact (written_char (.inl hc')).1
      · exact (written_char (.inl (day_last h2 (h ++ [':']) c (by simpa using hc)))).1
    have hc : (h ++ ':' :: m).contains ':' = true := by simp
    have hh : hasHalf (h ++ ':' :: m) = false := hasHalf_no fun c hc => clock_chars <| by
      rcases List.mem_append.1 hc with hc | hc
      · exact .inl (dd h1 c hc)
      · rcases List.mem_cons.1 hc with hc | hc
        · exact .inr hc
        · exact .inl (dd h2 c hc)
    show timeProcess (h ++ ':' :: m) = _
    simp only [timeProcess, hs, hc, hh, splitAll_app (nd h1), splitAll_no (nd h2)]
    rfl
  | hms h m s =>
    obtain ⟨h1, h2, h3⟩ := ht
    have hs : strip (h ++ ':' :: (m ++ ':' :: s)) = h ++ ':' :: (m ++ ':' :: s) := by
      refine strip_eq_self (fun c hc => ?_) (fun c hc => ?_)
      · obtain ⟨c', r', e, hc'⟩ := day_head h1 (':' :: (m ++ ':' :: s))
        rw [e] at hc
        cases hc
        exact (written_char (.inl hc')).1
      · exact (written_char (.inl (day_last h3 (h ++ ':' :: (m ++ [':'])) c (by simpa using hc)))).1
    have hc : (h ++ ':' :: (m ++ ':' :: s)).contains ':' = true := by simp
    have hh : hasHalf (h ++ ':' :: (m ++ ':' :: s)) = false := hasHalf_no fun c hc => clock_chars <| by
      rcases List.mem_append.1 hc with hc | hc
      · exact .inl (dd h1 c hc)
      · rcases List.mem_cons.1 hc with hc | hc
        · exact .inr hc
        · rcases List.mem_append.1 hc with hc | hc
          · exact .inl (dd h2 c hc)
          · rcases List.mem_cons.1 hc with hc | hc
            · exact .inr hc
            · exact .inl (dd h3 c hc)
    show timeProcess (h ++ ':' :: (m ++ ':' :: s)) = _
    simp only [timeProcess, hs, hc, hh, splitAll_app (nd h1), splitAll_app (nd h2), splitAll_no (nd h3)]
    rfl
  | halfHm h x m =>
    obtain ⟨h1, hx, h2⟩ := ht
    have hs : strip (h ++ (x ++ ':' :: m)) = h ++ (x ++ ':' :: m) := by
      refine strip_eq_self (fun c hc => ?_) (fun c hc => ?_)
      · obtain ⟨c', r', e, hc'⟩ := day_head h1 (x ++ ':' :: m)
        rw [e] at hc
        cases hc
        exact (written_char (.inl hc')).1
      · exact (written_char (.inl (day_last h2 (h ++ (x ++ [':'])) c (by simpa using hc)))).1
    have hc : (h ++ (x ++ ':' :: m)).contains ':' = true := by simp
    have hh := hasHalf_yes hx h (':' :: m)
    have hsp : splitAll ':' (h ++ (x ++ ':' :: m)) = [h ++ x, m] := by
      rw [← List.append_assoc, splitAll_app (half_no hx h1), splitAll_no (nd h2)]
    show timeProcess (h ++ (x ++ ':' :: m)) = _
    simp only [timeProcess, hs, hc, hh, hsp]
    rfl
  | halfHms h x m s =>
    obtain ⟨h1, hx, h2, h3⟩ := ht
    have hs : strip (h ++ (x ++ ':' :: (m ++ ':' :: s))) = h ++ (x ++ ':' :: (m ++ ':' :: s)) := by
      refine strip_eq_self (fun c hc => ?_) (fun c hc => ?_)
      · obtain ⟨c', r', e, hc'⟩ := day_head h1 (x ++ ':' :: (m ++ ':' :: s))
        rw [e] at hc
        cases hc
        exact (written_char (.inl hc')).1
      · exact (written_char (.inl (day_last h3 (h ++ (x ++ ':' :: (m ++ [':']))) c (by simpa using hc)))).1
    have hc : (h ++ (x ++ ':' :: (m ++ ':' :: s))).contains ':' = true := by simp
    have hh := hasHalf_yes hx h (':' :: (m ++ ':' :: s))
    have hsp : splitAll ':' (h ++ (x ++ ':' :: (m ++ ':' :: s))) = [h ++ x, m, s] := by
      rw [← List.append_assoc, splitAll_app (half_no hx h1), splitAll_app (nd h2), splitAll_no (nd h3)]
    show timeProcess (h ++ (x ++ ':' :: (m ++ ':' :: s))) = _
    simp only [timeProcess, hs, hc, hh, hsp]
    rfl

theorem day_digits {d : DayText} (hd : d.Good) : (∀ c ∈ d.text, isDig c = true ∨ c = '/') ∧ (∃ a r, Digits a ∧ d.text = a ++ '/' :: r) ∧
    ∃ r b, Digits b ∧ d.text = r ++ b := by
  have dd : ∀ {s : Str}, Digits s → ∀ c ∈ s, isDig c = true := fun h => ((Digits_iff _).1 h).2
  have three : ∀ {x y z : Str}, Digits x → Digits y → Digits z → ∀ c ∈ x ++ '/' :: (y ++ '/' :: z), isDig c = true ∨ c = '/' := by
    intro x y z hx hy hz c hc
    simp only [List.mem_append, List.mem_cons] at hc
    rcases hc with h | h | h | h | h
    · exact .inl (dd hx c h)
    · exact .inr h
    · exact .inl (dd hy c h)
    · exact .inr h
    · exact .inl (dd hz c h)
  cases d with
  | ymd y m d => exact ⟨three hd.1.1 hd.2.1.1 hd.2.2.1, ⟨y, _, hd.1.1, rfl⟩, y ++ '/' :: (m ++ ['/']), d, hd.2.2.1, by simp [DayText.text]⟩
  | dmy d m y => exact ⟨three hd.1.1 hd.2.1.1 hd.2.2.1, ⟨d, _, hd.1.1, rfl⟩, d ++ '/' :: (m ++ ['/']), y, hd.2.2.1, by simp [DayText.text]⟩
  | shortYear y m d => exact ⟨three hd.1.1 hd.2.1.1 hd.2.2.1, ⟨y, _, hd.1.1, rfl⟩, y ++ '/' :: (m ++ ['/']), d, hd.2.2.1, by simp [DayText.text]⟩
  | thisYear m d =>
    refine ⟨fun c hc => ?_, ⟨m, d, hd.1.1, rfl⟩, m ++ ['/'], d, hd.2.1, by simp [DayText.text]⟩
    simp only [DayText.text, List.mem_append, List.mem_cons] at hc
    rcases hc with h | h | h
    · exact .inl (dd hd.1.1 c h)
    · exact .inr h
    · exact .inl (dd hd.2.1 c h)

theorem clock_digits {t : ClockText} (ht : t.Good) : (∀ c ∈ t.text, isDig c = true ∨ c = ':' ∨ c = ' ' ∨ halfCh c) ∧
    (t = .midnight ∨ ∃ r b, Digits b ∧ t.text = r ++ b) ∧ (t = .midnight ∨ ':' ∈ t.text ∧ ∃ r, t.text = ' ' :: r) := by
  have dd : ∀ {s : Str}, Digits s → ∀ c ∈ s, isDig c = true := fun h => ((Digits_iff _).1 h).2
  cases t with
  | midnight => exact ⟨fun c hc => by simp [ClockText.text] at hc, .inl rfl, .inl rfl⟩
  | hm h m =>
    refine ⟨fun c hc => ?_, .inr ⟨' ' :: (h ++ [':']), m, ht.2, by simp [ClockText.text]⟩, .inr ⟨by simp [ClockText.text], _, rfl⟩⟩
    simp only [ClockText.text, List.mem_append, List.mem_cons] at hc
    rcases hc with hc | hc | hc | hc
    · exact .inr (.inr (.inl hc))
    · exact .inl (dd ht.1 c hc)
    · exact .inr (.inl hc)
    · exact .inl (dd ht.2 c hc)
  | hms h m s =>
    refine ⟨fun c hc => ?_, .inr ⟨' ' :: (h ++ ':' :: (m ++ [':'])), s, ht.2.2, by simp [ClockText.text]⟩, .inr ⟨by simp [ClockText.text], _, rfl⟩⟩
    simp only [ClockText.text, List.mem_append, List.mem_cons] at hc
    rcases hc with hc | hc | hc | hc | hc | hc
    · exact .inr (.inr (.inl hc))
    · exact .inl (dd ht.1 c hc)
    · exact .inr (.inl hc)
    · exact .inl (dd ht.2.1 c hc)
    · exact .inr (.inl hc)
    · exact .inl (dd ht.2.2 c hc)
  | halfHm h x m =>
    refine ⟨fun c hc => ?_, .inr ⟨' ' :: (h ++ (x ++ [':'])), m, ht.2.2, by simp [ClockText.text]⟩, .inr ⟨by simp [ClockText.text], _, rfl⟩⟩
    simp only [ClockText.text, List.mem_append, List.mem_cons] at hc
    rcases hc with hc | hc | hc | hc | hc
    · exact .inr (.inr (.inl hc))
    · exact .inl (dd ht.1 c hc)
    · exact .inr (.inr (.inr (half_chars ht.2.1 c hc)))
    · exact .inr (.inl hc)
    · exact .inl (dd ht.2.2 c hc)
  | halfHms h x m s =>
    refine ⟨fun c hc => ?_, .inr ⟨' ' :: (h ++ (x ++ ':' :: (m ++ [':']))), s, ht.2.2.2, by simp [ClockText.text]⟩, .inr ⟨by simp [ClockText.text], _, rfl⟩⟩
    simp only [ClockText.text, List.mem_append, List.mem_cons] at hc
    rcases hc with hc | hc | hc | hc | hc | hc | hc
    · exact .inr (.inr (.inl hc))
    · exact .inl (dd ht.1 c hc)
    · exact .inr (.inr (.inr (half_chars ht.2.1 c hc)))
    · exact .inr (.inl hc)
    · exact .inl (dd ht.2.2.1 c hc)
    · exact .inr (.inl hc)
    · exact .inl (dd ht.2.2.2 c hc)

theorem join_read (cal : Calendar) (x y : Str × Str) :
    (do let (tt, tf) ← (.ok x : Res (Str × Str)); let (dd, df) ← (.ok y : Res (Str × Str)); cal.read (dd ++ [' '] ++ tt) (df ++ [' '] ++ tf)) =
      cal.read (y.1 ++ ' ' :: x.1) (y.2 ++ ' ' :: x.2) := by
  show cal.read (y.1 ++ [' '] ++ x.1) (y.2 ++ [' '] ++ x.2) = _
  rw [List.append_assoc, List.append_assoc]
  rfl

/-- **C101** (dates): a lock given as a date, with or without a time of the day, is that date read by the calendar with the year, the month and the
day in the documented places, in the local time zone, at midnight if no time is given. -/
theorem C101_date (F : FloatSeconds) (cal : Calendar) (now : Int) (d : DayText) (t : ClockText) (hd : d.Good) (ht : t.Good) :
    lockText F cal now (d.text ++ t.text) =
      cal.read ((d.meaning cal.year).1 ++ ' ' :: t.meaning.1) ((d.meaning cal.year).2 ++ ' ' :: t.meaning.2) := by
  obtain ⟨d1, ⟨a, r, d2, d3⟩, r', b, d4, d5⟩ := day_digits hd
  obtain ⟨t1, t2, t3⟩ := clock_digits ht
  have hmem : ∀ c ∈ d.text ++ t.text, isDig c = true ∨ c = '/' ∨ c = ':' ∨ c = ' ' ∨ halfCh c := by
    intro c hc
    rcases List.mem_append.1 hc with hc | hc
    · exact (d1 c hc).imp_right .inl
    · exact (t1 c hc).imp_right .inr
  have hno : ∀ x : Char, isDig x = false → x ≠ '/' → x ≠ ':' → x ≠ ' ' → ¬ halfCh x → x ∉ d.text ++ t.text := by
    intro x h1 h2 h3 h4 h5 hm
    rcases hmem x hm with h | h | h | h | h
    · rw [h] at h1; cases h1
    · exact h2 h
    · exact h3 h
    · exact h4 h
    · exact h5 h
  have hhead : ∃ c s, d.text ++ t.text = c :: s ∧ isDig c = true := by
    rw [d3, List.append_assoc]
    exact day_head d2 _
  obtain ⟨c, s, hcs, hc⟩ := hhead
  have hlast : ∀ x, (d.text ++ t.text).getLast? = some x → isDig x = true := by
    rcases t2 with rfl | ⟨r2, b2, hb, e⟩
    · rw [d5]
      intro x hx
      exact day_last d4 r' x (by simpa [ClockText.text] using hx)
    · rw [e, ← List.append_assoc]
      exact day_last hb _
  have hstrip : strip ((d.text ++ t.text).filter fun c => c != '\'' && c != '"') = d.text ++ t.text := by
    have hf : (d.text ++ t.text).filter (fun c => c != '\'' && c != '"') = d.text ++ t.text := by
      rw [List.filter_eq_self]
      intro x hx
      have h1 : x ≠ '\'' := fun e => hno '\'' (by decide) (by decide) (by decide) (by decide) (by unfold halfCh; decide) (e ▸ hx)
      have h2 : x ≠ '"' := fun e => hno '"' (by decide) (by decide) (by decide) (by decide) (by unfold halfCh; decide) (e ▸ hx)
      simp [h1, h2]
    rw [hf]
    refine strip_eq_self (fun x hx => ?_) (fun x hx => (written_char (.inl (hlast x hx))).1)
    rw [hcs] at hx
    cases hx
    exact (written_char (.inl hc)).1
  have hslash : '/' ∈ d.text := by rw [d3]; simp
  have hz : ¬ (d.text ++ t.text = ['0'] ∨ d.text ++ t.text = []) := by
    rintro (h | h)
    · have : '/' ∈ d.text ++ t.text := List.mem_append_left _ hslash
      rw [h] at this
      exact absurd this (by decide)
    · rw [hcs] at h; cases h
  have hsign : ((d.text ++ t.text).contains '+' || (d.text ++ t.text).contains '-') = false := by
    have h1 := hno '+' (by decide) (by decide) (by decide) (by decide) (by unfold halfCh; decide)
    have h2 := hno '-' (by decide) (by decide) (by decide) (by decide) (by unfold halfCh; decide)
    simp only [Bool.or_eq_false_iff, List.contains_eq_mem, decide_eq_false_iff_not]
    exact ⟨h1, h2⟩
  have hl : lockText F cal now (d.text ++ t.text) = dateClean cal (d.text ++ t.text) := by
    have hsp : isPySpace c = false := (written_char (.inl hc)).1
    have hplus : c ≠ '+' := fun e => by subst e; exact absurd hc (by decide)
    unfold lockText lstrip
    rw [hcs]
    simp [hsp, hplus]
  rw [hl]
  simp only [dateClean, hstrip, if_neg hz, hsign]
  rcases t3 with rfl | ⟨hcolon, r3, hr3⟩
  · have hnc : (d.text ++ ClockText.text .midnight).contains ':' = false := by
      simp only [ClockText.text, List.append_nil, List.contains_eq_mem, decide_eq_false_iff_not]
      intro hm
      rcases d1 _ hm with h | h <;> exact absurd h (by decide)
    rw [hnc]
    have htp : timeProcess [] = .ok ClockText.midnight.meaning := timeProcess_good (t := .midnight) trivial
    have e0 : d.text ++ ClockText.text .midnight = d.text := by simp [ClockText.text]
    rw [e0]
    show (do let (tt, tf) ← timeProcess []; let (dd, df) ← dateProcess cal d.text; cal.read (dd ++ [' '] ++ tt) (df ++ [' '] ++ tf)) = _
    rw [htp, dateProcess_good cal hd]
    exact join_read cal _ _
  · have hcc : (d.text ++ t.text).contains ':' = true := by simp [hcolon]
    have hsp : ' ' ∉ d.text := fun hm => by rcases d1 _ hm with h | h <;> exact absurd h (by decide)
    have hsf : splitFirst (d.text ++ t.text) = some (d.text, r3) := by rw [hr3, splitFirst_app hsp]
    have htp : timeProcess r3 = .ok t.meaning := by
      have := timeProcess_good ht
      rw [hr3] at this
      exact this
    rw [hcc, hsf]
    show (do let (tt, tf) ← timeProcess r3; let (dd, df) ← dateProcess cal d.text; cal.read (dd ++ [' '] ++ tt) (df ++ [' '] ++ tf)) = _
    rw [htp, dateProcess_good cal hd]
    exact join_read cal _ _

/-- **C101** (no date): a text that is nothing but a zero, and a duration of `None`, mean no time at all. -/
theorem C101_undefined (F : FloatSeconds) (cal : Calendar) (now : Int) (a b : Nat) :
    lockText F cal now (List.replicate a ' ' ++ ('0' :: List.replicate b ' ')) = .ok 0 ∧ durClean F .none = .ok 0 := by
  refine ⟨?_, rfl⟩
  have h1 : lstrip isPySpace (List.replicate a ' ' ++ ('0' :: List.replicate b ' ')) = '0' :: List.replicate b ' ' := lstrip_spaces a (by decide) _
  have h2 : ('0' :: List.replicate b ' ').filter (fun c => c != '\'' && c != '"') = '0' :: List.replicate b ' ' := by
    rw [List.filter_eq_self]
    intro x hx
    rcases List.mem_cons.1 hx with rfl | hx
    · decide
    · rw [(List.mem_replicate.1 hx).2]; decide
  have h3 : strip ('0' :: List.replicate b ' ') = ['0'] := by
    have := strip_spaces (s := ['0']) 0 b (by simp) (by simp; decide) (by simp; decide)
    simpa using this
  unfold lockText
  rw [h1]
  show dateClean cal ('0' :: List.replicate b ' ') = .ok 0
  unfold dateClean
  simp only [h2, h3]
  rfl

/-- "31/10/2012 12:30". -/
def lastOctober : DayText := .dmy "31".toList "10".toList "2012".toList
def halfPast : ClockText := .hm "12".toList "30".toList

/-- "10am:50". -/
def tenAm : ClockText := .halfHm "10".toList "am".toList "50".toList
example : tenAm.Good ∧ lastOctober.text ++ tenAm.text = "31/10/2012 10am:50".toList ∧ tenAm.meaning.2 = "%I%p:%M".toList := by
  refine ⟨⟨?_, ?_, ?_⟩, by decide, by decide⟩
  · unfold Digits; decide
  · unfold HalfDay; decide
  · unfold Digits; decide

theorem lastOctober_good : lastOctober.Good ∧ halfPast.Good := by
  refine ⟨⟨⟨?_, by decide⟩, ⟨?_, by decide⟩, ?_, by decide⟩, ?_, ?_⟩ <;> (unfold Digits; decide)

example : lastOctober.text ++ halfPast.text = "31/10/2012 12:30".toList ∧ (lastOctober.meaning []).2 ++ ' ' :: halfPast.meaning.2 = "%d/%m/%Y %H:%M".toList := by
  decide

/-- Finding: a time of the day alone — the documentation gives '12:00:10' as an example of a lock — is refused. -/
theorem C101_clock_false (F : FloatSeconds) (cal : Calendar) (now : Int) (h m s : Str) (hh : Digits h) (hm : Digits m) (hs : Digits s) :
    lockText F cal now (h ++ ':' :: (m ++ ':' :: s)) = .error .valueError := by
  have dd : ∀ {s : Str}, Digits s → ∀ c ∈ s, isDig c = true := fun h => ((Digits_iff _).1 h).2
  obtain ⟨c, r, e, hc⟩ := day_head hh (':' :: (m ++ ':' :: s))
  have hmem : ∀ c ∈ h ++ ':' :: (m ++ ':' :: s), isDig c = true ∨ c = ':' := by
    intro c hc
    simp only [List.mem_append, List.mem_cons] at hc
    rcases hc with hc | hc | hc | hc | hc
    · exact .inl (dd hh c hc)
    · exact .inr hc
    · exact .inl (dd hm c hc)
    · exact .inr hc
    · exact .inl (dd hs c hc)
  have hno : ∀ x : Char, isDig x = false → x ≠ ':' → x ∉ h ++ ':' :: (m ++ ':' :: s) := by
    intro x h1 h2 hx
    rcases hmem x hx with h | h
    · rw [h] at h1; cases h1
    · exact h2 h
  have hcolon : ':' ∈ h ++ ':' :: (m ++ ':' :: s) := by simp
  have hlast := day_last hs (h ++ ':' :: (m ++ [':']))
  have hsf : ∀ t : Str, ' ' ∉ t → splitFirst t = none := by
    intro t ht
    induction t with
    | nil => rfl
    | cons x t ih =>
      have hx : x ≠ ' ' := fun e => ht (by simp [e])
      rw [splitFirst, if_neg hx, ih (fun hm => ht (by simp [hm]))]
      rfl
  have hspace := hsf _ (hno ' ' (by decide) (by decide))
  have h1 := hno '\'' (by decide) (by decide)
  have h2 := hno '"' (by decide) (by decide)
  have h3 := hno '+' (by decide) (by decide)
  have h4 := hno '-' (by decide) (by decide)
  have hlast' : ∀ x, (h ++ ':' :: (m ++ ':' :: s)).getLast? = some x → isDig x = true := fun x hx => hlast x (by simpa using hx)
  generalize h ++ ':' :: (m ++ ':' :: s) = T at *
  have hsp : isPySpace c = false := (written_char (.inl hc)).1
  have hplus : c ≠ '+' := fun e => by subst e; exact absurd hc (by decide)
  have hl : lockText F cal now T = dateClean cal T := by
    unfold lockText lstrip
    rw [e]
    simp [hsp, hplus]
  have hf : T.filter (fun c => c != '\'' && c != '"') = T := by
    rw [List.filter_eq_self]
    intro x hx
    have h1 : x ≠ '\'' := fun e => h1 (e ▸ hx)
    have h2 : x ≠ '"' := fun e => h2 (e ▸ hx)
    simp [h1, h2]
  have hstrip : strip T = T := by
    refine strip_eq_self (fun x hx => ?_) (fun x hx => (written_char (.inl (hlast' x hx))).1)
    rw [e] at hx
    cases hx
    exact hsp
  have hz : ¬ (T = ['0'] ∨ T = []) := by
    rintro (h | h)
    · rw [h] at hcolon
      exact absurd hcolon (by decide)
    · rw [h] at e; cases e
  have hsign : (T.contains '+' || T.contains '-') = false := by
    simp only [Bool.or_eq_false_iff, List.contains_eq_mem, decide_eq_false_iff_not]
    exact ⟨h3, h4⟩
  have hcc : T.contains ':' = true := by simpa using hcolon
  rw [hl]
  simp only [dateClean, hf, hstrip, if_neg hz, hsign, hcc, hspace]
  rfl

example : Digits "12".toList ∧ Digits "00".toList ∧ "12".toList ++ ':' :: ("00".toList ++ ':' :: "10".toList) = "12:00:10".toList := by
  unfold Digits; decide

/-! ### What the lock means -/

/-- **C101** (payments): coins sent with a lock given as `+` and a duration are locked exactly until that long after the moment the lock was made, on
any chain whose clock is past 1985. -/
theorem C101_locked_for (H : Bytes → Bytes) (F : FloatSeconds) (cal : Calendar) (now : Int) (w : Written) (hw : w.Good) (hne : w.text ≠ [])
    (hlim : w.total < 86400 * 10 ^ 9) (hnow : 500000000 ≤ now) (r : Recipient) (l : LockVal) (c : Condition)
    (hl : lockOfText F cal now ('+' :: w.text) = .ok l) (hc : fromRecipient H r l = .ok c) (height time : Int) :
    lockedCheck c.lock height time = true ↔ time < now + w.total := by
  have h := C101_duration F cal now 0 0 w hw hne hlim
  simp only [List.replicate_zero, List.nil_append] at h
  unfold lockOfText at hl
  rw [h] at hl
  cases hl
  unfold fromRecipient at hc
  cases hb : r.base H with
  | error e => rw [hb] at hc; cases hc
  | ok b =>
    rw [hb] at hc
    cases hc
    show lockedCheck (now + w.total) height time = true ↔ _
    rw [C27_lock_boundary, if_neg (by omega)]

/-- A calendar that knows one date. -/
def toyCalendar : Calendar := ⟨"2019".toList, fun t f => if t = "31/10/1980 12:30".toList ∧ f = "%d/%m/%Y %H:%M".toList then .ok 341843400 else .error .valueError,
  fun _ => .error .valueError⟩

example : lockOfText (fun _ => .error .valueError) toyCalendar 1570000000 ('+' :: sevenAndHalf.text) = .ok (.computed 1570648000) ∧
    fromRecipient toyHash .none (.computed 1570648000) = .ok (.lockTime 1570648000 .nil) := ⟨rfl, by decide⟩

/-- **C101** (atomic swaps): a refund time given as `+` and a duration is the chain time plus that many seconds. -/
theorem C101_refundable_after (F : FloatSeconds) (cal : Calendar) (now : Int) (w : Written) (hw : w.Good) (hne : w.text ≠ [])
    (hlim : w.total < 86400 * 10 ^ 9) (l : LockVal) (hl : lockOfText F cal now ('+' :: w.text) = .ok l) : outputLock l = .ok (now + w.total) := by
  have h := C101_duration F cal now 0 0 w hw hne hlim
  simp only [List.replicate_zero, List.nil_append] at h
  unfold lockOfText at hl
  rw [h] at hl
  cases hl
  rfl

example : outputLock (.computed 1570648000) = .ok (1570000000 + sevenAndHalf.total) := by decide

/-- Finding: a date before 5 November 1985, long past, does not give an output that can be spent at once: it is taken as a block height, and the
output stays locked for as long as the chain has fewer blocks than that date has seconds. -/
theorem C101_early_date_false (H : Bytes → Bytes) (F : FloatSeconds) (cal : Calendar) (now : Int) (d : DayText) (t : ClockText) (hd : d.Good) (ht : t.Good)
    (v : Int) (hread : cal.read ((d.meaning cal.year).1 ++ ' ' :: t.meaning.1) ((d.meaning cal.year).2 ++ ' ' :: t.meaning.2) = .ok v) (hv : v < 500000000)
    (r : Recipient) (l : LockVal) (c : Condition)
    (hl : lockOfText F cal now (d.text ++ t.text) = .ok l) (hc : fromRecipient H r l = .ok c) (height time : Int) (hh : height < v) :
    lockedCheck c.lock height time = true := by
  have h := C101_date F cal now d t hd ht
  rw [hread] at h
  unfold lockOfText at hl
  rw [h] at hl
  cases hl
  unfold fromRecipient at hc
  cases hb : r.base H with
  | error e => rw [hb] at hc; cases hc
  | ok b =>
    rw [hb] at hc
    cases hc
    show lockedCheck v height time = true
    rw [C27_lock_boundary, if_pos hv]
    exact hh

/-- "31/10/1980". -/
def octoberThen : DayText := .dmy "31".toList "10".toList "1980".toList

example : octoberThen.Good ∧ toyCalendar.read ((octoberThen.meaning toyCalendar.year).1 ++ ' ' :: halfPast.meaning.1)
      ((octoberThen.meaning toyCalendar.year).2 ++ ' ' :: halfPast.meaning.2) = .ok 341843400 ∧
    lockOfText (fun _ => .error .valueError) toyCalendar 1570000000 (octoberThen.text ++ halfPast.text) = .ok (.computed 341843400) ∧
    lockedCheck (Condition.lockTime 341843400 .nil).lock 500000 1570000000 = true := by
  refine ⟨⟨⟨?_, by decide⟩, ⟨?_, by decide⟩, ?_, by decide⟩, by decide, rfl, by decide⟩ <;> (unfold Digits; decide)

end TF.Props
