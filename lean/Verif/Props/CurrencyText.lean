import Verif.Spec.CurrencyText
import Verif.Props.Stakes
import Verif.Props.Amount
/-! # C125: which texts are amounts, and what they mean -/
namespace TF.Props
open TF Spec

/-! ## Capital letters -/

theorem toUpper_cases (c : Char) : c.toUpper = c ∧ ¬ (97 ≤ c.toNat ∧ c.toNat ≤ 122) ∨
    (97 ≤ c.toNat ∧ c.toNat ≤ 122) ∧ c.toUpper.toNat = c.toNat - 32 := by
  by_cases h : 97 ≤ c.toNat ∧ c.toNat ≤ 122
  · right
    refine ⟨h, ?_⟩
    have : ∀ n < 26, (Char.ofNat (97 + n)).toUpper.toNat = 65 + n := by decide
    have h2 := this (c.toNat - 97) (by omega)
    rw [show 97 + (c.toNat - 97) = c.toNat by omega, Char.ofNat_toNat] at h2
    omega
  · left
    refine ⟨?_, h⟩
    unfold Char.toUpper
    rw [dif_neg]
    intro h'
    exact h ⟨h'.1, h'.2⟩

theorem isPySpace_letter {c : Char} (h : 65 ≤ c.toNat ∧ c.toNat ≤ 122) : isPySpace c = false := by
  simp only [isPySpace, Bool.or_eq_false_iff, Bool.and_eq_false_iff, decide_eq_false_iff_not, beq_eq_false_iff_ne]
  omega

theorem isPySpace_upper (c : Char) : isPySpace c.toUpper = isPySpace c := by
  rcases toUpper_cases c with ⟨h, -⟩ | ⟨h1, h2⟩
  · rw [h]
  · rw [isPySpace_letter (c := c) (by omega), isPySpace_letter (by omega)]

theorem asciiDigit_upper (c : Char) : asciiDigit c.toUpper = (asciiDigit c).toUpper := by
  rcases toUpper_cases c with ⟨h, h'⟩ | ⟨h1, h2⟩
  · rw [h]
    by_cases ha : c.toNat < 128
    · rw [asciiDigit_ascii ha, h]
    · unfold asciiDigit
      rw [if_neg ha]
      split
      · rename_i z hz
        have := List.find?_some hz
        simp only [decide_eq_true_eq] at this
        have hk : c.toNat - z < 10 := by omega
        generalize c.toNat - z = k at hk
        have : ∀ k < 10, (Char.ofNat (48 + k)) = (Char.ofNat (48 + k)).toUpper := by decide
        exact this k hk
      · exact h.symm
  · rw [asciiDigit_ascii (c := c) (by omega), asciiDigit_ascii (by omega)]

theorem eq_of_toNat {a b : Char} (h : a.toNat = b.toNat) : a = b := by
  rw [← Char.ofNat_toNat a, h, Char.ofNat_toNat]

/-- A character that is no letter is left alone, and nothing else becomes it. -/
theorem toUpper_eq {c d : Char} (hd : ¬ (65 ≤ d.toNat ∧ d.toNat ≤ 90) ∧ ¬ (97 ≤ d.toNat ∧ d.toNat ≤ 122)) : c.toUpper = d ↔ c = d := by
  rcases toUpper_cases c with ⟨h, -⟩ | ⟨h1, h2⟩
  · rw [h]
  · constructor
    · intro e; rw [e] at h2; omega
    · intro e; subst e; omega

theorem isDig_upper (c : Char) : isDig c.toUpper = isDig c := by
  rcases toUpper_cases c with ⟨h, -⟩ | ⟨h1, h2⟩
  · rw [h]
  · have a : isDig c = false := by simp only [isDig, decide_eq_false_iff_not]; omega
    have b : isDig c.toUpper = false := by simp only [isDig, decide_eq_false_iff_not]; omega
    rw [a, b]

theorem toUpper_twice (c : Char) : c.toUpper.toUpper = c.toUpper := by
  rcases toUpper_cases c with ⟨h, -⟩ | ⟨h1, h2⟩
  · rw [h, h]
  · rcases toUpper_cases c.toUpper with ⟨h, -⟩ | ⟨h3, h4⟩
    · exact h
    · omega

theorem map_dropWhile {p : Char → Bool} {f : Char → Char} (h : ∀ c, p (f c) = p c) (s : Str) : (s.map f).dropWhile p = (s.dropWhile p).map f := by
  induction s with
  | nil => rfl
  | cons c s ih =>
    rw [List.map_cons, List.dropWhile_cons, List.dropWhile_cons, h]
    split
    · exact ih
    · rfl

theorem map_takeWhile {p : Char → Bool} {f : Char → Char} (h : ∀ c, p (f c) = p c) (s : Str) : (s.map f).takeWhile p = (s.takeWhile p).map f := by
  induction s with
  | nil => rfl
  | cons c s ih =>
    rw [List.map_cons, List.takeWhile_cons, List.takeWhile_cons, h]
    split
    · rw [ih]; rfl
    · rfl

theorem rstrip_map {p : Char → Bool} {f : Char → Char} (h : ∀ c, p (f c) = p c) (s : Str) : rstrip p (s.map f) = (rstrip p s).map f := by
  unfold rstrip
  rw [← List.map_reverse, map_dropWhile h, List.map_reverse]

theorem strip_upper (s : Str) : strip (upper s) = upper (strip s) := by
  unfold strip upper lstrip
  rw [map_dropWhile isPySpace_upper, rstrip_map isPySpace_upper]

/-- The text without blanks around and without the unit, in its own letters. -/
def ownStrip (s : Str) : Str :=
  let v := strip s
  if 4 ≤ v.length ∧ upper (v.drop (v.length - 3)) = ['T', 'F', 'T'] then rstrip isPySpace (v.take (v.length - 3)) else v

theorem stripUnit_own (s : Str) : Currency.stripUnit s = upper (ownStrip s) := by
  unfold Currency.stripUnit ownStrip
  simp only [strip_upper]
  have hl : (upper (strip s)).length = (strip s).length := by simp [upper]
  rw [hl]
  have hd : (upper (strip s)).drop ((strip s).length - 3) = upper ((strip s).drop ((strip s).length - 3)) := by simp [upper]
  have ht : (upper (strip s)).take ((strip s).length - 3) = upper ((strip s).take ((strip s).length - 3)) := by simp [upper]
  rw [hd, ht]
  split
  · exact rstrip_map isPySpace_upper _
  · rfl

theorem splitSign_upper (s : Str) : splitSign (upper s) = ((splitSign s).1, upper (splitSign s).2) := by
  cases s with
  | nil => rfl
  | cons c s =>
    by_cases h1 : c = '-'
    · subst h1; rfl
    · by_cases h2 : c = '+'
      · subst h2; rfl
      · have e : splitSign (c :: s) = (false, c :: s) := by
          unfold splitSign
          split
          · rename_i e; exact absurd (List.cons.inj e).1 h1
          · rename_i e; exact absurd (List.cons.inj e).1 h2
          · rfl
        rw [e]
        show splitSign (c.toUpper :: upper s) = (false, c.toUpper :: upper s)
        unfold splitSign
        split
        · rename_i e; exact absurd ((toUpper_eq (by decide)).1 (List.cons.inj e).1) h1
        · rename_i e; exact absurd ((toUpper_eq (by decide)).1 (List.cons.inj e).1) h2
        · rfl

theorem upper_digits {s : Str} (h : ∀ c ∈ s, isDig c = true) : upper s = s := by
  unfold upper
  conv => rhs; rw [← List.map_id s]
  exact List.map_congr_left fun c hc => (isDig_facts (h c hc)).2.2.2.2.2.2.2.1

theorem takeWhile_digits (s : Str) : ∀ c ∈ s.takeWhile isDig, isDig c = true := fun c hc => List.all_eq_true.1 List.all_takeWhile c hc

theorem isDig_all_upper (s : Str) : (upper s).all isDig = s.all isDig := by
  unfold upper
  rw [List.all_map]
  congr 1
  funext c
  exact isDig_upper c

theorem isSpecialDec_upper (s : Str) : isSpecialDec (upper s) = isSpecialDec s := by
  have : upper (upper s) = upper s := by
    unfold upper
    rw [List.map_map]
    exact List.map_congr_left fun c _ => toUpper_twice c
  unfold isSpecialDec
  rw [this]

theorem toUpper_e (c : Char) : (c.toUpper = 'e' ∨ c.toUpper = 'E') ↔ (c = 'e' ∨ c = 'E') := by
  rcases toUpper_cases c with ⟨h, -⟩ | ⟨h1, h2⟩
  · rw [h]
  · constructor
    · rintro (e | e)
      · rw [e] at h2; exact .inl (eq_of_toNat (by have : ('e').toNat = 101 := rfl; omega))
      · rw [e] at h2; exact .inl (eq_of_toNat (by have : ('E').toNat = 69 := rfl; have : ('e').toNat = 101 := rfl; omega))
    · rintro (e | e)
      · subst e; right; rfl
      · subst e; right; rfl

/-- An optional point and digits, and the rest. -/
def afterPoint (r : Str) : Str × Str :=
  match r with
  | '.' :: t => (t.takeWhile isDig, t.dropWhile isDig)
  | _ => ([], r)

/-- Digits, an optional point and digits, and the rest. -/
def pieces (s : Str) : Str × Str × Str := (s.takeWhile isDig, (afterPoint (s.dropWhile isDig)).1, (afterPoint (s.dropWhile isDig)).2)

/-- The exponent. -/
def expoOf (s : Str) : Option Int :=
  match s with
  | [] => some 0
  | e :: t => if e = 'e' ∨ e = 'E' then
      if (splitSign t).2 ≠ [] ∧ (splitSign t).2.all isDig then
        some (if (splitSign t).1 then - (digVal (splitSign t).2 : Int) else (digVal (splitSign t).2 : Int)) else none
    else none

theorem parseUnsigned_pieces (neg : Bool) (s : Str) : parseUnsignedDec neg s =
    if (pieces s).1 ++ (pieces s).2.1 = [] then none
    else (expoOf (pieces s).2.2).map fun e => ⟨neg, digVal ((pieces s).1 ++ (pieces s).2.1), e - ((pieces s).2.1.length : Int)⟩ := by
  have h : parseUnsignedDec neg s = (match afterPoint (s.dropWhile isDig) with
    | (fp, r2) => if s.takeWhile isDig ++ fp = [] then none
      else match r2 with
        | [] => some ⟨neg, digVal (s.takeWhile isDig ++ fp), - (fp.length : Int)⟩
        | e :: t =>
          if e = 'e' ∨ e = 'E' then
            if (splitSign t).2 ≠ [] ∧ (splitSign t).2.all isDig then
              some ⟨neg, digVal (s.takeWhile isDig ++ fp), (if (splitSign t).1 then - (digVal (splitSign t).2 : Int) else (digVal (splitSign t).2 : Int)) - fp.length⟩
            else none
          else none) := rfl
  rw [h]
  unfold pieces
  generalize afterPoint (s.dropWhile isDig) = p
  obtain ⟨fp, r2⟩ := p
  dsimp only
  split
  · rfl
  · cases r2 with
    | nil => simp [expoOf]
    | cons e t =>
      unfold expoOf
      dsimp only
      split
      · split
        · rfl
        · rfl
      · rfl

theorem pieces_upper (s : Str) : pieces (upper s) = ((pieces s).1, (pieces s).2.1, upper (pieces s).2.2) := by
  have hd : ∀ t : Str, (upper t).dropWhile isDig = upper (t.dropWhile isDig) := fun t => map_dropWhile isDig_upper t
  have ht : ∀ t : Str, (upper t).takeWhile isDig = t.takeWhile isDig := fun t => by
    unfold upper
    rw [map_takeWhile isDig_upper]
    exact upper_digits (takeWhile_digits t)
  have ha : ∀ r : Str, afterPoint (upper r) = ((afterPoint r).1, upper (afterPoint r).2) := by
    intro r
    cases r with
    | nil => rfl
    | cons c r =>
      by_cases hc : c = '.'
      · subst hc
        show ((upper r).takeWhile isDig, (upper r).dropWhile isDig) = (r.takeWhile isDig, upper (r.dropWhile isDig))
        rw [ht, hd]
      · have h1 : c.toUpper ≠ '.' := fun e => hc ((toUpper_eq (by decide)).1 e)
        have e : ∀ (x : Char) (t : Str), x ≠ '.' → afterPoint (x :: t) = ([], x :: t) := by
          intro x t hx
          unfold afterPoint
          split
          · rename_i e; exact absurd (List.cons.inj e).1 hx
          · rfl
        rw [e c r hc]
        exact e _ _ h1
  unfold pieces
  rw [hd, ht, ha]

theorem expoOf_upper (s : Str) : expoOf (upper s) = expoOf s := by
  cases s with
  | nil => rfl
  | cons c s =>
    show expoOf (c.toUpper :: upper s) = _
    unfold expoOf
    dsimp only
    simp only [toUpper_e, splitSign_upper, isDig_all_upper]
    have hne : (upper (splitSign s).2 ≠ []) ↔ (splitSign s).2 ≠ [] := by simp [upper]
    simp only [hne]
    split
    · split
      · rename_i h
        rw [upper_digits fun c hc => List.all_eq_true.1 h.2 c hc]
      · rfl
    · rfl

theorem parseUnsigned_upper (neg : Bool) (s : Str) : parseUnsignedDec neg (upper s) = parseUnsignedDec neg s := by
  rw [parseUnsigned_pieces, parseUnsigned_pieces, pieces_upper]
  dsimp only
  rw [expoOf_upper]

/-- `Decimal` does not care about case. -/
theorem parseDec_upper (s : Str) : parseDec (upper s) = parseDec s := by
  have h : (strip ((upper s).map asciiDigit)).filter (· ≠ '_') = upper ((strip (s.map asciiDigit)).filter (· ≠ '_')) := by
    have e : (upper s).map asciiDigit = upper (s.map asciiDigit) := by
      unfold upper
      rw [List.map_map, List.map_map]
      exact List.map_congr_left fun c _ => asciiDigit_upper c
    rw [e, strip_upper]
    unfold upper
    rw [List.filter_map]
    congr 1
    apply List.filter_congr
    intro c _
    have := toUpper_eq (c := c) (d := '_') (by decide)
    simp [this]
  unfold parseDec
  rw [h, splitSign_upper]
  dsimp only
  rw [isSpecialDec_upper, parseUnsigned_upper]

/-! ## The grammar -/

/-- An exponent. -/
def Expo (r : Str) (e : Int) : Prop := r = [] ∧ e = 0 ∨
  ∃ (E : Char) (esign eds : Str), r = E :: (esign ++ eds) ∧ (E = 'e' ∨ E = 'E') ∧ eds ≠ [] ∧ (∀ c ∈ eds, DecDigit c) ∧
    ((esign = [] ∨ esign = ['+']) ∧ e = writtenBy eds ∨ esign = ['-'] ∧ e = - (writtenBy eds : Int))

theorem splitSign_sign {sign r : Str} (hr : ∀ c, r.head? = some c → c ≠ '+' ∧ c ≠ '-') :
    ((sign = [] ∨ sign = ['+']) → splitSign (sign ++ r) = (false, r)) ∧ (sign = ['-'] → splitSign (sign ++ r) = (true, r)) := by
  refine ⟨?_, ?_⟩
  · rintro (rfl | rfl)
    · rw [List.nil_append]
      unfold splitSign
      split
      · exact absurd rfl (hr '-' rfl).2
      · exact absurd rfl (hr '+' rfl).1
      · rfl
    · rfl
  · rintro rfl; rfl

theorem digits_head {ds : Str} (hd : ∀ c ∈ ds, DecDigit c) : ∀ c, ds.head? = some c → c ≠ '+' ∧ c ≠ '-' := by
  intro c hc
  have := isDig_facts ((decDigit_iff c).1 (hd c (List.mem_of_head? hc)))
  exact ⟨this.2.2.1, this.2.2.2.1⟩

theorem expoOf_iff (r : Str) (e : Int) : expoOf r = some e ↔ Expo r e := by
  unfold Expo
  cases r with
  | nil => simp [expoOf, eq_comm]
  | cons E t =>
    unfold expoOf
    dsimp only
    constructor
    · intro h
      right
      by_cases hE : E = 'e' ∨ E = 'E'
      · rw [if_pos hE] at h
        by_cases hd : (splitSign t).2 ≠ [] ∧ (splitSign t).2.all isDig
        · rw [if_pos hd] at h
          obtain ⟨sign, ht, hs⟩ := splitSign_cases t
          refine ⟨E, sign, (splitSign t).2, by rw [← ht], hE, hd.1, fun c hc => (decDigit_iff c).2 (List.all_eq_true.1 hd.2 c hc), ?_⟩
          rw [writtenBy_digVal]
          rcases hs with ⟨h1, h2⟩ | ⟨h1, h2⟩
          · rw [h2] at h; exact .inl ⟨h1, by simpa using h.symm⟩
          · rw [h2] at h; exact .inr ⟨h1, by simpa using h.symm⟩
        · rw [if_neg hd] at h; cases h
      · rw [if_neg hE] at h; cases h
    · rintro (⟨h, -⟩ | ⟨E', esign, eds, h, hE, hne, hd, hs⟩)
      · cases h
      · obtain ⟨rfl, rfl⟩ := List.cons.inj h
        rw [if_pos hE]
        obtain ⟨h1, h2⟩ := splitSign_sign (sign := esign) (digits_head hd)
        have hall : eds.all isDig = true := List.all_eq_true.2 fun c hc => (decDigit_iff c).1 (hd c hc)
        rw [writtenBy_digVal] at hs
        rcases hs with ⟨h, rfl⟩ | ⟨h, rfl⟩
        · rw [h1 h]; simp [hne, hall]
        · rw [h2 h]; simp [hne, hall]

theorem takeWhile_stop {p : Char → Bool} {a r : Str} (ha : ∀ c ∈ a, p c = true) (hr : ∀ c, r.head? = some c → p c = false) :
    (a ++ r).takeWhile p = a ∧ (a ++ r).dropWhile p = r := by
  induction a with
  | nil =>
    rw [List.nil_append]
    cases r with
    | nil => exact ⟨rfl, rfl⟩
    | cons c r =>
      have := hr c rfl
      rw [List.takeWhile_cons, List.dropWhile_cons, this]
      exact ⟨rfl, rfl⟩
  | cons c a ih =>
    obtain ⟨h1, h2⟩ := ih fun d hd => ha d (by simp [hd])
    rw [List.cons_append, List.takeWhile_cons, List.dropWhile_cons, ha c (by simp), if_pos rfl, if_pos rfl, h1, h2]
    exact ⟨rfl, rfl⟩

theorem expo_head {r : Str} {e : Int} (h : Expo r e) : ∀ c, r.head? = some c → c = 'e' ∨ c = 'E' := by
  intro c hc
  rcases h with ⟨rfl, -⟩ | ⟨E, es, ed, rfl, hE, -⟩
  · cases hc
  · cases hc; exact hE

/-- Digits with an optional point and an optional exponent. -/
def NoSign (u ds : Str) (e : Int) : Prop :=
  ∃ whole point frac expo : Str, u = whole ++ point ++ expo ∧ (point = [] ∧ frac = [] ∨ point = '.' :: frac) ∧
    ds = whole ++ frac ∧ ds ≠ [] ∧ (∀ c ∈ ds, DecDigit c) ∧ ∃ x, Expo expo x ∧ e = x - (frac.length : Int)

theorem parseUnsigned_iff (neg : Bool) (u : Str) (d : Dec) :
    parseUnsignedDec neg u = some d ↔ d.neg = neg ∧ ∃ ds, d.coef = writtenBy ds ∧ NoSign u ds d.exp := by
  rw [parseUnsigned_pieces]
  constructor
  · intro h
    split at h
    · cases h
    · rename_i hne
      obtain ⟨x, hx, rfl⟩ := Option.map_eq_some_iff.1 h
      refine ⟨rfl, _, (writtenBy_digVal _).symm, ?_⟩
      dsimp only
      have hp : ∃ point, u.dropWhile isDig = point ++ (pieces u).2.2 ∧ (point = [] ∧ (pieces u).2.1 = [] ∨ point = '.' :: (pieces u).2.1) ∧
          ∀ c ∈ (pieces u).2.1, isDig c = true := by
        unfold pieces
        dsimp only
        generalize u.dropWhile isDig = r
        unfold afterPoint
        split
        · rename_i t
          exact ⟨'.' :: t.takeWhile isDig, by simp, .inr rfl, takeWhile_digits t⟩
        · exact ⟨[], rfl, .inl ⟨rfl, rfl⟩, by simp⟩
      obtain ⟨point, h1, h2, h3⟩ := hp
      refine ⟨(pieces u).1, point, (pieces u).2.1, (pieces u).2.2, ?_, h2, rfl, hne, ?_, x, (expoOf_iff _ _).1 hx, rfl⟩
      · rw [List.append_assoc, ← h1]
        exact List.takeWhile_append_dropWhile.symm
      · intro c hc
        rw [decDigit_iff]
        rcases List.mem_append.1 hc with hc | hc
        · exact takeWhile_digits u c hc
        · exact h3 c hc
  · rintro ⟨rfl, ds, hc, whole, point, frac, expo, rfl, hpt, rfl, hne, hd, x, hx, he⟩
    have hdig : ∀ c ∈ whole ++ frac, isDig c = true := fun c hc => (decDigit_iff c).1 (hd c hc)
    have hex : ∀ c, expo.head? = some c → isDig c = false := by
      intro c hc
      rcases expo_head hx c hc with rfl | rfl <;> decide
    have hrest : ∀ c, (point ++ expo).head? = some c → isDig c = false := by
      intro c hc
      rcases hpt with ⟨rfl, -⟩ | rfl
      · exact hex c hc
      · cases hc; decide
    obtain ⟨t1, t2⟩ := takeWhile_stop (p := isDig) (a := whole) (r := point ++ expo) (fun c hc => hdig c (by simp [hc])) hrest
    have hap : afterPoint (point ++ expo) = (frac, expo) := by
      rcases hpt with ⟨rfl, rfl⟩ | rfl
      · rw [List.nil_append]
        unfold afterPoint
        split
        · rename_i t
          rcases expo_head hx '.' rfl with h | h <;> exact absurd h (by decide)
        · rfl
      · obtain ⟨t3, t4⟩ := takeWhile_stop (p := isDig) (a := frac) (r := expo) (fun c hc => hdig c (by simp [hc])) hex
        show ((frac ++ expo).takeWhile isDig, (frac ++ expo).dropWhile isDig) = _
        rw [t3, t4]
    have hpc : pieces (whole ++ point ++ expo) = (whole, frac, expo) := by
      unfold pieces
      rw [List.append_assoc, t1, t2, hap]
    rw [hpc]
    dsimp only
    rw [if_neg hne, (expoOf_iff _ _).2 hx, writtenBy_digVal] at *
    obtain ⟨n, co, ex⟩ := d
    dsimp only at hc he ⊢
    rw [hc, he]
    rfl

theorem unsigned_head {u ds : Str} {e : Int} (h : NoSign u ds e) : ∀ c, u.head? = some c → DecDigit c ∨ c = '.' := by
  obtain ⟨whole, point, frac, expo, rfl, hpt, rfl, hne, hd, -⟩ := h
  intro c hc
  cases whole with
  | cons a w => simp at hc; subst hc; exact .inl (hd _ (by simp))
  | nil =>
    rcases hpt with ⟨rfl, rfl⟩ | rfl
    · exact absurd rfl hne
    · simp at hc; exact .inr hc.symm

theorem unsigned_ne {u ds : Str} {e : Int} (h : NoSign u ds e) : u ≠ [] := by
  obtain ⟨whole, point, frac, expo, rfl, hpt, rfl, hne, hd, -⟩ := h
  intro h
  simp only [List.append_eq_nil_iff] at h
  obtain ⟨⟨rfl, rfl⟩, -⟩ := h
  rcases hpt with ⟨-, rfl⟩ | h
  · exact hne rfl
  · cases h

theorem decimalText_iff (t : Str) (negative : Bool) (ds : Str) (e : Int) :
    DecimalText t negative ds e ↔ ∃ sign u, t = sign ++ u ∧ ((sign = [] ∨ sign = ['+']) ∧ negative = false ∨ sign = ['-'] ∧ negative = true) ∧
      NoSign u ds e := by
  constructor
  · rintro ⟨sign, whole, point, frac, expo, rfl, hs, hp, hds, hne, hd, hx⟩
    refine ⟨sign, _, rfl, hs, whole, point, frac, expo, rfl, hp, hds, hne, hd, ?_⟩
    rcases hx with ⟨rfl, rfl⟩ | ⟨E, es, ed, rfl, h1, h2, h3, ⟨h4, rfl⟩ | ⟨h4, rfl⟩⟩
    · exact ⟨0, .inl ⟨rfl, rfl⟩, by omega⟩
    · exact ⟨_, .inr ⟨E, es, ed, rfl, h1, h2, h3, .inl ⟨h4, rfl⟩⟩, rfl⟩
    · exact ⟨_, .inr ⟨E, es, ed, rfl, h1, h2, h3, .inr ⟨h4, rfl⟩⟩, rfl⟩
  · rintro ⟨sign, u, rfl, hs, whole, point, frac, expo, rfl, hp, hds, hne, hd, x, hx, rfl⟩
    refine ⟨sign, whole, point, frac, expo, rfl, hs, hp, hds, hne, hd, ?_⟩
    rcases hx with ⟨rfl, rfl⟩ | ⟨E, es, ed, rfl, h1, h2, h3, ⟨h4, rfl⟩ | ⟨h4, rfl⟩⟩
    · exact .inl ⟨rfl, by omega⟩
    · exact .inr ⟨E, es, ed, rfl, h1, h2, h3, .inl ⟨h4, rfl⟩⟩
    · exact .inr ⟨E, es, ed, rfl, h1, h2, h3, .inr ⟨h4, rfl⟩⟩

/-- Infinity or "not a number" without sign. -/
def Named (u : Str) : Prop := ∃ name ds : Str, u = name ++ ds ∧
    ((upper name = "INF".toList ∨ upper name = "INFINITY".toList) ∧ ds = [] ∨
      (upper name = "NAN".toList ∨ upper name = "SNAN".toList) ∧ ∀ c ∈ ds, DecDigit c)

theorem special_iff (u : Str) : isSpecialDec u = true ↔ Named u := by
  have hall : ∀ n, ((upper u).drop n).all isDig = (u.drop n).all isDig := by
    intro n
    rw [show (upper u).drop n = upper (u.drop n) by simp [upper], isDig_all_upper]
  unfold isSpecialDec Named
  simp only [hall, Bool.or_eq_true, Bool.and_eq_true, beq_iff_eq]
  have ht : ∀ n, (upper u).take n = upper (u.take n) := by intro n; simp [upper]
  constructor
  · rintro (((h | h) | h) | h)
    · exact ⟨u, [], by simp, .inl ⟨.inl h, rfl⟩⟩
    · exact ⟨u, [], by simp, .inl ⟨.inr h, rfl⟩⟩
    · exact ⟨u.take 3, u.drop 3, by simp, .inr ⟨.inl (by rw [← ht]; exact h.1), fun c hc => (decDigit_iff c).2 (List.all_eq_true.1 h.2 c hc)⟩⟩
    · exact ⟨u.take 4, u.drop 4, by simp, .inr ⟨.inr (by rw [← ht]; exact h.1), fun c hc => (decDigit_iff c).2 (List.all_eq_true.1 h.2 c hc)⟩⟩
  · rintro ⟨name, ds, rfl, ⟨h, rfl⟩ | ⟨h, hd⟩⟩
    · rw [List.append_nil]
      rcases h with h | h
      · exact .inl (.inl (.inl h))
      · exact .inl (.inl (.inr h))
    · have hall : ds.all isDig = true := List.all_eq_true.2 fun c hc => (decDigit_iff c).1 (hd c hc)
      rcases h with h | h
      · have hl : name.length = 3 := by have := congrArg List.length h; simpa [upper] using this
        refine .inl (.inr ⟨?_, ?_⟩)
        · rw [ht, ← hl, List.take_left]; exact h
        · rw [← hl, List.drop_left]; exact hall
      · have hl : name.length = 4 := by have := congrArg List.length h; simpa [upper] using this
        refine .inr ⟨?_, ?_⟩
        · rw [ht, ← hl, List.take_left]; exact h
        · rw [← hl, List.drop_left]; exact hall

theorem named_head {u : Str} (h : Named u) : ∃ c, u.head? = some c ∧ (c.toUpper = 'I' ∨ c.toUpper = 'N' ∨ c.toUpper = 'S') := by
  obtain ⟨name, ds, rfl, h⟩ := h
  have : ∀ c r, upper name = c :: r → ∃ x y, name = x :: y ∧ x.toUpper = c := by
    intro c r h
    cases name with
    | nil => cases h
    | cons x y => exact ⟨x, y, rfl, (List.cons.inj h).1⟩
  rcases h with ⟨h | h, -⟩ | ⟨h | h, -⟩
  · obtain ⟨x, y, rfl, hx⟩ := this _ _ h; exact ⟨x, rfl, .inl hx⟩
  · obtain ⟨x, y, rfl, hx⟩ := this _ _ h; exact ⟨x, rfl, .inl hx⟩
  · obtain ⟨x, y, rfl, hx⟩ := this _ _ h; exact ⟨x, rfl, .inr (.inl hx)⟩
  · obtain ⟨x, y, rfl, hx⟩ := this _ _ h; exact ⟨x, rfl, .inr (.inr hx)⟩

theorem unsigned_not_named {u ds : Str} {e : Int} (h : NoSign u ds e) : ¬ Named u := by
  intro hn
  obtain ⟨c, hc, h2⟩ := named_head hn
  rcases unsigned_head h c hc with h1 | rfl
  · have := (isDig_facts ((decDigit_iff c).1 h1)).2.2.2.2.2.2.2.1
    rw [this] at h2
    rcases h2 with rfl | rfl | rfl <;> exact absurd h1 (by unfold DecDigit; decide)
  · revert h2; decide

theorem unsigned_no_sign {u ds : Str} {e : Int} (h : NoSign u ds e) : ∀ c, u.head? = some c → c ≠ '+' ∧ c ≠ '-' := by
  intro c hc
  rcases unsigned_head h c hc with h1 | rfl
  · have := isDig_facts ((decDigit_iff c).1 h1); exact ⟨this.2.2.1, this.2.2.2.1⟩
  · decide

theorem named_no_sign {u : Str} (h : Named u) : ∀ c, u.head? = some c → c ≠ '+' ∧ c ≠ '-' := by
  intro c hc
  obtain ⟨d, hd, h2⟩ := named_head h
  rw [hd] at hc; cases hc
  constructor <;> (rintro rfl; revert h2; decide)

/-- `Decimal` once blanks, underscores and other scripts are dealt with. -/
def decCore (b : Str) : Option DecLit :=
  if isSpecialDec (splitSign b).2 then some .special else (parseUnsignedDec (splitSign b).1 (splitSign b).2).map .fin

theorem decCore_fin (b : Str) (d : Dec) : decCore b = some (.fin d) ↔ ∃ ds, d.coef = writtenBy ds ∧ DecimalText b d.neg ds d.exp := by
  unfold decCore
  constructor
  · intro h
    split at h
    · cases h
    · obtain ⟨d', hd', e⟩ := Option.map_eq_some_iff.1 h
      cases e
      obtain ⟨hn, ds, hc, hu⟩ := (parseUnsigned_iff _ _ _).1 hd'
      obtain ⟨sign, hb, hs⟩ := splitSign_cases b
      refine ⟨ds, hc, (decimalText_iff _ _ _ _).2 ⟨sign, _, hb, ?_, hu⟩⟩
      rw [hn]; exact hs
  · rintro ⟨ds, hc, h⟩
    obtain ⟨sign, u, rfl, hs, hu⟩ := (decimalText_iff _ _ _ _).1 h
    obtain ⟨h1, h2⟩ := splitSign_sign (sign := sign) (unsigned_no_sign hu)
    have hn : ¬ isSpecialDec u = true := fun h => unsigned_not_named hu ((special_iff u).1 h)
    have hp : parseUnsignedDec d.neg u = some d := (parseUnsigned_iff _ _ _).2 ⟨rfl, ds, hc, hu⟩
    rcases hs with ⟨hs, e⟩ | ⟨hs, e⟩
    · rw [h1 hs]; dsimp only; rw [if_neg hn, ← e, hp]; rfl
    · rw [h2 hs]; dsimp only; rw [if_neg hn, ← e, hp]; rfl

theorem decCore_special (b : Str) : decCore b = some .special ↔ SpecialText b := by
  unfold decCore
  constructor
  · intro h
    split at h
    · rename_i hs
      obtain ⟨name, ds, hu, hx⟩ := (special_iff _).1 hs
      obtain ⟨sign, hb, hs⟩ := splitSign_cases b
      refine ⟨sign, name, ds, by rw [← hu]; exact hb, ?_, hx⟩
      rcases hs with ⟨h | h, -⟩ | ⟨h, -⟩ <;> simp [h]
    · obtain ⟨d', hd', e⟩ := Option.map_eq_some_iff.1 h
      cases e
  · rintro ⟨sign, name, ds, rfl, hs, hx⟩
    have hn : Named (name ++ ds) := ⟨name, ds, rfl, hx⟩
    obtain ⟨h1, h2⟩ := splitSign_sign (sign := sign) (named_no_sign hn)
    rcases hs with h | h | h
    · rw [h1 (.inl h), if_pos ((special_iff _).2 hn)]
    · rw [h1 (.inr h), if_pos ((special_iff _).2 hn)]
    · rw [h2 h, if_pos ((special_iff _).2 hn)]

/-! ## Blanks and the unit -/

theorem isPySpace_ascii (c : Char) : isPySpace (asciiDigit c) = isPySpace c := by
  unfold asciiDigit
  split
  · rfl
  · split
    · rename_i z hz
      have h1 := List.find?_some hz
      simp only [decide_eq_true_eq] at h1
      have hm := List.mem_of_find?_eq_some hz
      have a : ∀ k < 10, isPySpace (Char.ofNat (48 + k)) = false := by decide
      have b : ∀ z ∈ digitZeros, ∀ k < 10, isPySpace (Char.ofNat (z + k)) = false := by decide +kernel
      have b' := b z hm (c.toNat - z) (by omega)
      rw [show z + (c.toNat - z) = c.toNat by omega, Char.ofNat_toNat] at b'
      rw [a _ (by omega), b']
    · rfl

theorem strip_ascii (s : Str) : strip (s.map asciiDigit) = (strip s).map asciiDigit := by
  unfold strip lstrip
  rw [map_dropWhile isPySpace_ascii, rstrip_map isPySpace_ascii]

theorem parseDec_core (t : Str) : parseDec t = decCore (bareText (strip t)) := by
  unfold parseDec decCore bareText
  rw [strip_ascii]

theorem rstrip_last {p : Char → Bool} (s : Str) : ∀ c, (rstrip p s).getLast? = some c → p c = false := by
  intro c hc
  unfold rstrip at hc
  rw [List.getLast?_reverse] at hc
  have := List.head?_dropWhile_not p s.reverse
  rw [hc] at this
  simpa using this

theorem lstrip_head {p : Char → Bool} (s : Str) : ∀ c, (lstrip p s).head? = some c → p c = false := by
  intro c hc
  unfold lstrip at hc
  have := List.head?_dropWhile_not p s
  rw [hc] at this
  simpa using this

theorem rstrip_split (p : Char → Bool) (s : Str) : ∃ after, s = rstrip p s ++ after ∧ ∀ c ∈ after, p c = true := by
  refine ⟨(s.reverse.takeWhile p).reverse, ?_, ?_⟩
  · have h := List.takeWhile_append_dropWhile (p := p) (l := s.reverse)
    have h' := congrArg List.reverse h
    rw [List.reverse_append, List.reverse_reverse] at h'
    exact h'.symm
  · intro c hc; exact List.all_eq_true.1 List.all_takeWhile c (List.mem_reverse.1 hc)

theorem rstrip_head {p : Char → Bool} {s : Str} (h : ∀ c, s.head? = some c → p c = false) : ∀ c, (rstrip p s).head? = some c → p c = false := by
  intro c hc
  obtain ⟨after, h1, -⟩ := rstrip_split p s
  apply h
  rw [h1]
  cases hr : rstrip p s with
  | nil => rw [hr] at hc; cases hc
  | cons x l => rw [hr] at hc; exact hc

theorem strip_ends (s : Str) : (∀ c, (strip s).head? = some c → isPySpace c = false) ∧ (∀ c, (strip s).getLast? = some c → isPySpace c = false) :=
  ⟨rstrip_head (lstrip_head s), rstrip_last _⟩

theorem ownStrip_ends (s : Str) : strip (ownStrip s) = ownStrip s := by
  unfold ownStrip
  dsimp only
  split
  · rename_i h
    apply strip_eq_self
    · apply rstrip_head
      intro c hc
      apply (strip_ends s).1
      have hne : (strip s).take ((strip s).length - 3) ≠ [] := by
        intro e; have := congrArg List.length e; simp at this; omega
      rw [← List.take_append_drop ((strip s).length - 3) (strip s), List.head?_append, hc]; rfl
    · exact rstrip_last _
  · exact strip_eq_self (strip_ends s).1 (strip_ends s).2

theorem ownStrip_inUnit (s : Str) : InUnit s (ownStrip s) := by
  obtain ⟨before, after, hs, hb, ha⟩ := strip_split s
  unfold ownStrip
  dsimp only
  split
  · rename_i h
    obtain ⟨gap, hg, hgs⟩ := rstrip_split isPySpace ((strip s).take ((strip s).length - 3))
    refine ⟨before, gap, (strip s).drop ((strip s).length - 3), after, ?_, ?_, .inr h.2⟩
    · rw [← hg, List.take_append_drop]; exact hs
    · intro c hc
      simp only [List.mem_append] at hc
      rcases hc with (hc | hc) | hc
      · exact hb c hc
      · exact hgs c hc
      · exact ha c hc
  · refine ⟨before, [], [], after, by simpa using hs, ?_, .inl ⟨rfl, rfl⟩⟩
    intro c hc
    simp only [List.mem_append, List.not_mem_nil, or_false] at hc
    rcases hc with hc | hc
    · exact hb c hc
    · exact ha c hc

/-- A text that is nothing but a number. -/
structure Clean (b : Str) : Prop where
  ne : b ≠ []
  blank : ∀ c ∈ b, isPySpace c = false
  last : ∀ c, b.getLast? = some c → c.toUpper ≠ 'T'

theorem bareText_append (a b : Str) : bareText (a ++ b) = bareText a ++ bareText b := by simp [bareText]

theorem toUpper_T {c : Char} (h : c.toUpper = 'T') : bareText [c] = [c] := by
  have : c.toNat = 84 ∨ c.toNat = 116 := by
    rcases toUpper_cases c with ⟨h1, -⟩ | ⟨h1, h2⟩
    · rw [h1] at h; subst h; left; rfl
    · rw [h] at h2; have : ('T').toNat = 84 := rfl; right; omega
  have e : c = 'T' ∨ c = 't' := by
    rcases this with h | h
    · exact .inl (eq_of_toNat h)
    · exact .inr (eq_of_toNat h)
  rcases e with rfl | rfl <;> decide

theorem own_of_inUnit {s num : Str} (h : InUnit s num) (hc : Clean (bareText num)) : ownStrip s = num := by
  have hblank : ∀ c ∈ num, isPySpace c = false := by
    intro c hm
    by_cases hu : asciiDigit c = '_'
    · rw [← isPySpace_ascii, hu]; decide
    · rw [← isPySpace_ascii]
      apply hc.blank
      simp only [bareText, List.mem_filter, List.mem_map]
      exact ⟨⟨c, hm, rfl⟩, by simpa using hu⟩
  have hne : num ≠ [] := by rintro rfl; exact hc.ne rfl
  have hlast : ∀ c, num.getLast? = some c → c.toUpper ≠ 'T' := by
    intro c hl hT
    obtain ⟨r, rfl⟩ : ∃ r, num = r ++ [c] := by
      rw [List.getLast?_eq_some_iff] at hl; exact hl
    refine hc.last c ?_ hT
    rw [bareText_append, toUpper_T hT]; simp
  obtain ⟨before, gap, unit, after, rfl, hsp, hu⟩ := h
  have hb : ∀ c ∈ before, isPySpace c = true := fun c h => hsp c (by simp [h])
  have hg : ∀ c ∈ gap, isPySpace c = true := fun c h => hsp c (by simp [h])
  have ha : ∀ c ∈ after, isPySpace c = true := fun c h => hsp c (by simp [h])
  have hst : strip (before ++ (num ++ gap ++ unit) ++ after) = num ++ gap ++ unit := by
    refine strip_around hb ha (by simp [hne]) ?_ ?_
    · intro c hc
      rw [List.append_assoc, List.head?_append, List.head?_eq_some_head hne, Option.some_or] at hc
      cases hc
      exact hblank _ (List.head_mem hne)
    · intro c hl
      rcases hu with ⟨rfl, rfl⟩ | hu
      · rw [List.append_nil, List.append_nil] at hl
        exact hblank _ (List.mem_of_getLast? hl)
      · have hl3 : unit.length = 3 := by have := congrArg List.length hu; simpa [upper] using this
        have hun : unit ≠ [] := by rintro rfl; cases hl3
        rw [List.getLast?_append, List.getLast?_eq_some_getLast hun, Option.some_or] at hl
        cases hl
        have hm : (unit.getLast hun).toUpper ∈ upper unit := List.mem_map_of_mem (List.getLast_mem hun)
        rw [hu] at hm
        rw [← isPySpace_upper]
        have : ∀ c ∈ "TFT".toList, isPySpace c = false := by decide
        exact this _ hm
  unfold ownStrip
  simp only [hst]
  rcases hu with ⟨rfl, rfl⟩ | hu
  · simp only [List.append_nil]
    rw [if_neg]
    rintro ⟨h4, h⟩
    have hd : num.drop (num.length - 3) ≠ [] := by intro e; have := congrArg List.length e; simp at this; omega
    have hl := List.getLast?_eq_some_getLast hd
    have : (upper (num.drop (num.length - 3))).getLast? = some ((num.drop (num.length - 3)).getLast hd).toUpper := by
      unfold upper; rw [List.getLast?_map, hl]; rfl
    rw [h] at this
    have e : ((num.drop (num.length - 3)).getLast hd).toUpper = 'T' := by
      simp only [List.getLast?_cons_cons, List.getLast?_singleton, Option.some.injEq] at this; exact this.symm
    refine hlast _ ?_ e
    have e2 := List.getLast?_append (l := num.take (num.length - 3)) (l' := num.drop (num.length - 3))
    rw [List.take_append_drop, hl] at e2
    exact e2
  · have hl3 : unit.length = 3 := by have := congrArg List.length hu; simpa [upper] using this
    have hn1 : 1 ≤ num.length := by cases num with | nil => exact absurd rfl hne | cons _ _ => simp
    have e : (num ++ gap ++ unit).length - 3 = (num ++ gap).length := by simp only [List.length_append]; omega
    rw [e, List.take_left, List.drop_left, if_pos ⟨by simp only [List.length_append]; omega, hu⟩]
    unfold rstrip
    rw [List.reverse_append, dropWhile_append_all (fun c hc => hg c (List.mem_reverse.1 hc)), dropWhile_eq_self, List.reverse_reverse]
    intro c hc
    exact hblank c (List.mem_reverse.1 (List.mem_of_head? hc))

theorem unsigned_chars {u ds : Str} {e : Int} (h : NoSign u ds e) : ∀ c ∈ u, isPySpace c = false ∧ c.toUpper ≠ 'T' := by
  have hdig : ∀ c, DecDigit c → isPySpace c = false ∧ c.toUpper ≠ 'T' := by
    intro c hc
    have := isDig_facts ((decDigit_iff c).1 hc)
    refine ⟨this.1, ?_⟩
    rw [this.2.2.2.2.2.2.2.1]
    rintro rfl
    exact absurd hc (by unfold DecDigit; decide)
  obtain ⟨whole, point, frac, expo, rfl, hpt, rfl, hne, hd, x, hx, -⟩ := h
  intro c hc
  simp only [List.mem_append] at hc
  rcases hc with (hc | hc) | hc
  · exact hdig c (hd c (by simp [hc]))
  · rcases hpt with ⟨rfl, -⟩ | rfl
    · cases hc
    · rcases List.mem_cons.1 hc with rfl | hc
      · decide
      · exact hdig c (hd c (by simp [hc]))
  · rcases hx with ⟨rfl, -⟩ | ⟨E, es, ed, rfl, hE, -, hed, hs⟩
    · cases hc
    · rcases List.mem_cons.1 hc with rfl | hc
      · rcases hE with rfl | rfl <;> decide
      · rcases List.mem_append.1 hc with hc | hc
        · rcases hs with ⟨rfl | rfl, -⟩ | ⟨rfl, -⟩
          · cases hc
          · rw [List.mem_singleton] at hc; subst hc; decide
          · rw [List.mem_singleton] at hc; subst hc; decide
        · exact hdig c (hed c hc)

theorem clean_decimal {b ds : Str} {n : Bool} {e : Int} (h : DecimalText b n ds e) : Clean b := by
  obtain ⟨sign, u, rfl, hs, hu⟩ := (decimalText_iff _ _ _ _).1 h
  have hall : ∀ c ∈ sign ++ u, isPySpace c = false ∧ c.toUpper ≠ 'T' := by
    intro c hc
    rcases List.mem_append.1 hc with hc | hc
    · rcases hs with ⟨rfl | rfl, -⟩ | ⟨rfl, -⟩
      · cases hc
      · rw [List.mem_singleton] at hc; subst hc; decide
      · rw [List.mem_singleton] at hc; subst hc; decide
    · exact unsigned_chars hu c hc
  exact ⟨by simp [unsigned_ne hu], fun c hc => (hall c hc).1, fun c hc => (hall c (List.mem_of_getLast? hc)).2⟩

theorem clean_special {b : Str} (h : SpecialText b) : Clean b := by
  obtain ⟨sign, name, ds, rfl, hs, hx⟩ := h
  have hnm : ∀ c ∈ name, isPySpace c = false := by
    intro c hc
    have hm : c.toUpper ∈ upper name := List.mem_map_of_mem hc
    rw [← isPySpace_upper]
    have : ∀ l ∈ ["INF".toList, "INFINITY".toList, "NAN".toList, "SNAN".toList], ∀ c ∈ l, isPySpace c = false := by decide
    rcases hx with ⟨h | h, -⟩ | ⟨h | h, -⟩ <;> (rw [h] at hm; exact this _ (by simp) _ hm)
  have hne : name ≠ [] := by
    rintro rfl
    rcases hx with ⟨h | h, -⟩ | ⟨h | h, -⟩ <;> cases h
  have hdd : ∀ c ∈ ds, DecDigit c := by
    rcases hx with ⟨-, rfl⟩ | ⟨-, h⟩
    · simp
    · exact h
  refine ⟨by simp [hne], ?_, ?_⟩
  · intro c hc
    rcases List.mem_append.1 hc with hc | hc
    · rcases hs with rfl | rfl | rfl
      · cases hc
      · rw [List.mem_singleton] at hc; subst hc; decide
      · rw [List.mem_singleton] at hc; subst hc; decide
    · rcases List.mem_append.1 hc with hc | hc
      · exact hnm c hc
      · exact (isDig_facts ((decDigit_iff c).1 (hdd c hc))).1
  · intro c hc
    by_cases hd : ds = []
    · subst hd
      rw [List.append_nil, List.getLast?_append, List.getLast?_eq_some_getLast hne, Option.some_or, ← List.getLast?_eq_some_getLast hne] at hc
      have hl : (upper name).getLast? = some c.toUpper := by unfold upper; rw [List.getLast?_map, hc]; rfl
      intro hT
      rw [hT] at hl
      rcases hx with ⟨h | h, -⟩ | ⟨h | h, -⟩ <;> (rw [h] at hl; revert hl; decide)
    · rw [List.getLast?_append, List.getLast?_append, List.getLast?_eq_some_getLast hd, Option.some_or, Option.some_or] at hc
      cases hc
      have h := hdd _ (List.getLast_mem hd)
      rw [(isDig_facts ((decDigit_iff _).1 h)).2.2.2.2.2.2.2.1]
      intro e
      rw [e] at h
      exact absurd h (by unfold DecDigit; decide)

theorem read_text (s : Str) : parseDec (Currency.stripUnit s) = decCore (bareText (ownStrip s)) := by
  rw [stripUnit_own, parseDec_upper, parseDec_core, ownStrip_ends]

theorem read_fin (s : Str) (d : Dec) : parseDec (Currency.stripUnit s) = some (.fin d) ↔ ∃ ds, d.coef = writtenBy ds ∧ AmountText s d.neg ds d.exp := by
  rw [read_text, decCore_fin]
  constructor
  · rintro ⟨ds, h1, h2⟩; exact ⟨ds, h1, _, ownStrip_inUnit s, h2⟩
  · rintro ⟨ds, h1, num, h2, h3⟩
    rw [own_of_inUnit h2 (clean_decimal h3)]
    exact ⟨ds, h1, h3⟩

theorem read_special (s : Str) : parseDec (Currency.stripUnit s) = some .special ↔ SpecialAmount s := by
  rw [read_text, decCore_special]
  constructor
  · intro h; exact ⟨_, ownStrip_inUnit s, h⟩
  · rintro ⟨num, h2, h3⟩
    rw [own_of_inUnit h2 (clean_special h3)]
    exact h3

/-! ## C125 -/

/-- **C125** (accepted texts). A text is accepted as an amount exactly when it is a number of TFT written with blanks around it, digits of any
script, underscores anywhere, an exponent and the unit `TFT` in any case, without minus sign and with at most nine decimals as written;
and it is then that amount. -/
theorem C125_accepted (s : Str) :
    ((∃ c, Currency.set (.str s) = .ok c) ↔ ∃ ds e, AmountText s false ds e ∧ -9 ≤ e) ∧
    ∀ c, Currency.set (.str s) = .ok c → ∀ neg ds e, AmountText s neg ds e → neg = false ∧ -9 ≤ e ∧ amount c = writtenBy ds * 10 ^ (e + 9).toNat := by
  constructor
  · constructor
    · rintro ⟨c, h⟩
      simp only [Currency.set] at h
      split at h
      · cases h
      · rename_i d hd
        cases d with
        | special => cases h
        | fin d =>
          obtain ⟨ds, h1, h2⟩ := (read_fin s d).1 hd
          simp only [Currency.checkDec] at h
          split at h
          · cases h
          · rename_i he
            split at h
            · cases h
            · rename_i hn
              rw [Bool.eq_false_iff.2 hn] at h2
              exact ⟨ds, d.exp, h2, by omega⟩
    · rintro ⟨ds, e, h, he⟩
      have := (read_fin s ⟨false, writtenBy ds, e⟩).2 ⟨ds, rfl, h⟩
      exact ⟨_, by simp only [Currency.set, this, Currency.checkDec]; rw [if_neg (by omega)]; rfl⟩
  · intro c h neg ds e ht
    have hr := (read_fin s ⟨neg, writtenBy ds, e⟩).2 ⟨ds, rfl, ht⟩
    simp only [Currency.set, hr, Currency.checkDec] at h
    split at h
    · cases h
    · rename_i he
      split at h
      · cases h
      · rename_i hn
        cases h
        exact ⟨Bool.eq_false_iff.2 hn, by omega, rfl⟩

/-- **C125** (refused texts). A text is refused for one of three reasons, and the exception says which: a number below zero (also "-0") or with
more than nine decimals as written; infinity or "not a number"; or a text that is no number. -/
theorem C125_refused (s : Str) :
    (Currency.set (.str s) = .error .nameError ↔ ∃ neg ds e, AmountText s neg ds e ∧ (neg = true ∨ e < -9)) ∧
    (Currency.set (.str s) = .error .typeError ↔ SpecialAmount s) ∧
    (Currency.set (.str s) = .error .decimalInvalidOperation ↔ ¬ SpecialAmount s ∧ ¬ ∃ neg ds e, AmountText s neg ds e) := by
  cases hr : parseDec (Currency.stripUnit s) with
  | none =>
    have h1 : ¬ SpecialAmount s := fun h => by rw [(read_special s).2 h] at hr; cases hr
    have h2 : ¬ ∃ neg ds e, AmountText s neg ds e := by
      rintro ⟨neg, ds, e, h⟩
      rw [(read_fin s ⟨neg, writtenBy ds, e⟩).2 ⟨ds, rfl, h⟩] at hr; cases hr
    simp only [Currency.set, hr]
    refine ⟨⟨fun h => (by cases h), ?_⟩, ⟨fun h => (by cases h), fun h => absurd h h1⟩, fun _ => ⟨h1, h2⟩, fun _ => by simp⟩
    rintro ⟨neg, ds, e, h, -⟩
    exact absurd ⟨neg, ds, e, h⟩ h2
  | some d =>
    cases d with
    | special =>
      have h1 := (read_special s).1 hr
      have h2 : ¬ ∃ neg ds e, AmountText s neg ds e := by
        rintro ⟨neg, ds, e, h⟩
        rw [(read_fin s ⟨neg, writtenBy ds, e⟩).2 ⟨ds, rfl, h⟩] at hr; cases hr
      simp only [Currency.set, hr, Currency.checkDec]
      refine ⟨⟨fun h => (by cases h), ?_⟩, ⟨fun _ => h1, fun _ => by simp⟩, fun h => (by cases h), fun h => absurd h1 h.1⟩
      rintro ⟨neg, ds, e, h, -⟩
      exact absurd ⟨neg, ds, e, h⟩ h2
    | fin d =>
      obtain ⟨ds, hc, ht⟩ := (read_fin s d).1 hr
      have h1 : ¬ SpecialAmount s := fun h => by rw [(read_special s).2 h] at hr; cases hr
      have huniq : ∀ neg ds e, AmountText s neg ds e → neg = d.neg ∧ e = d.exp := by
        intro neg ds e h
        rw [(read_fin s ⟨neg, writtenBy ds, e⟩).2 ⟨ds, rfl, h⟩] at hr
        cases hr; exact ⟨rfl, rfl⟩
      simp only [Currency.set, hr, Currency.checkDec]
      have h2 : ∃ neg ds e, AmountText s neg ds e := ⟨_, _, _, ht⟩
      by_cases he : d.exp < -9
      · rw [if_pos he]
        exact ⟨⟨fun _ => ⟨_, _, _, ht, .inr he⟩, fun _ => rfl⟩, ⟨fun h => (by cases h), fun h => absurd h h1⟩, fun h => (by cases h), fun h => absurd h2 h.2⟩
      · rw [if_neg he]
        by_cases hn : d.neg = true
        · rw [if_pos hn]
          exact ⟨⟨fun _ => ⟨_, _, _, ht, .inl hn⟩, fun _ => rfl⟩, ⟨fun h => (by cases h), fun h => absurd h h1⟩, fun h => (by cases h), fun h => absurd h2 h.2⟩
        · rw [if_neg hn]
          refine ⟨⟨fun h => (by cases h), ?_⟩, ⟨fun h => (by cases h), fun h => absurd h h1⟩, fun h => (by cases h), fun h => absurd h2 h.2⟩
          rintro ⟨neg, ds', e, h, hx⟩
          obtain ⟨rfl, rfl⟩ := huniq _ _ _ h
          rcases hx with hx | hx
          · exact absurd hx hn
          · exact absurd hx he

/-- **C125** (one reading). A text has one reading as an amount at most, and none if it is special. -/
theorem C125_one_reading (s : Str) (neg neg' : Bool) (ds ds' : Str) (e e' : Int) (h : AmountText s neg ds e) (h' : AmountText s neg' ds' e') :
    neg = neg' ∧ writtenBy ds = writtenBy ds' ∧ e = e' ∧ ¬ SpecialAmount s := by
  have a := (read_fin s ⟨neg, writtenBy ds, e⟩).2 ⟨ds, rfl, h⟩
  have b := (read_fin s ⟨neg', writtenBy ds', e'⟩).2 ⟨ds', rfl, h'⟩
  rw [a] at b
  obtain ⟨h1, h2, h3⟩ := Dec.mk.inj (DecLit.fin.inj (Option.some.inj b))
  refine ⟨h1, h2, h3, fun h => ?_⟩
  rw [(read_special s).2 h] at a
  cases a

/-- "1_0.5e-1 tft": one TFT and fifty thousandths. -/
theorem oddAmount : AmountText " 1_0.5e-1 tFt ".toList false "105".toList (-2) := by
  refine ⟨"1_0.5e-1".toList, ⟨[' '], [' '], "tFt".toList, [' '], by decide, by decide, .inr (by decide)⟩, ?_⟩
  refine ⟨[], ['1', '0'], ['.', '5'], ['5'], ['e', '-', '1'], by decide, .inl ⟨.inl rfl, rfl⟩, .inr rfl, by decide, by decide, ?_, ?_⟩
  · intro c hc; rw [decDigit_iff]; revert c; decide
  · refine .inr ⟨'e', ['-'], ['1'], rfl, .inl rfl, by decide, ?_, .inr ⟨rfl, by decide⟩⟩
    intro c hc; rw [decDigit_iff]; revert c; decide

example : AmountText " 1_0.5e-1 tFt ".toList false "105".toList (-2) ∧
    Currency.set (.str " 1_0.5e-1 tFt ".toList) = .ok ⟨some ⟨false, 105, -2⟩⟩ ∧ amount ⟨some ⟨false, 105, -2⟩⟩ = 1050000000 :=
  ⟨oddAmount, by decide, by decide⟩

example : Currency.set (.str "-0".toList) = .error .nameError ∧ Currency.set (.str "1.0000000000".toList) = .error .nameError ∧
    Currency.set (.str "nan 7".toList) = .error .decimalInvalidOperation ∧ Currency.set (.str " -Infinity TFT".toList) = .error .typeError ∧
    Currency.set (.str "TFT".toList) = .error .decimalInvalidOperation ∧ Currency.set (.str "1 TFT TFT".toList) = .error .decimalInvalidOperation := by decide

/-! ## Amounts in JSON objects -/

theorem strip_of_inBlanks {s num : Str} (h : InBlanks s num) (hc : Clean (bareText num)) : strip s = num := by
  have hblank : ∀ c ∈ num, isPySpace c = false := by
    intro c hm
    by_cases hu : asciiDigit c = '_'
    · rw [← isPySpace_ascii, hu]; decide
    · rw [← isPySpace_ascii]
      apply hc.blank
      simp only [bareText, List.mem_filter, List.mem_map]
      exact ⟨⟨c, hm, rfl⟩, by simpa using hu⟩
  obtain ⟨before, after, rfl, hsp⟩ := h
  exact strip_around (fun c h => hsp c (by simp [h])) (fun c h => hsp c (by simp [h])) (by rintro rfl; exact hc.ne rfl)
    (fun c h => hblank c (List.mem_of_head? h)) (fun c h => hblank c (List.mem_of_getLast? h))

theorem strip_inBlanks (s : Str) : InBlanks s (strip s) := by
  obtain ⟨before, after, hs, hb, ha⟩ := strip_split s
  exact ⟨before, after, hs, fun c hc => (List.mem_append.1 hc).elim (hb c) (ha c)⟩

theorem units_fin (s : Str) (d : Dec) : parseDec s = some (.fin d) ↔ ∃ ds, d.coef = writtenBy ds ∧ UnitsText s d.neg ds d.exp := by
  rw [parseDec_core, decCore_fin]
  constructor
  · rintro ⟨ds, h1, h2⟩; exact ⟨ds, h1, _, strip_inBlanks s, h2⟩
  · rintro ⟨ds, h1, num, h2, h3⟩
    rw [strip_of_inBlanks h2 (clean_decimal h3)]
    exact ⟨ds, h1, h3⟩

theorem units_special (s : Str) : parseDec s = some .special ↔ SpecialUnits s := by
  rw [parseDec_core, decCore_special]
  constructor
  · intro h; exact ⟨_, strip_inBlanks s, h⟩
  · rintro ⟨num, h2, h3⟩
    rw [strip_of_inBlanks h2 (clean_special h3)]
    exact h3

/-- **C125** (JSON). The text of an amount in a JSON object is a number of smallest units. If it is written with digits for less than 10^28, it
is accepted exactly when it is written without minus sign and without decimals, and means that number of smallest units. -/
theorem C125_json_partial (s : Str) (neg : Bool) (ds : Str) (e : Int) (h : UnitsText s neg ds e) (hb : writtenBy ds < 10 ^ 28) :
    (neg = false → 0 ≤ e → ∃ c, Currency.fromJson s = .ok c ∧ amount c = writtenBy ds * 10 ^ e.toNat) ∧
    (neg = true ∨ e < 0 → Currency.fromJson s = .error .nameError) := by
  have hr := (units_fin s ⟨neg, writtenBy ds, e⟩).2 ⟨ds, rfl, h⟩
  have hne : s ≠ [] := by
    rintro rfl
    obtain ⟨num, ⟨b, a, he, -⟩, hd⟩ := h
    have : num = [] := by simp at he; exact he.2.1
    subst this
    exact (clean_decimal hd).ne rfl
  have hm : (Dec.mul ⟨neg, writtenBy ds, e⟩ ⟨false, 1, -9⟩) = ⟨neg, writtenBy ds, e + -9⟩ := by
    unfold Dec.mul
    dsimp only
    rw [Nat.mul_one, decFix_of_lt hb]
    cases neg <;> rfl
  unfold Currency.fromJson
  rw [if_neg hne, hr]
  simp only [hm, Currency.set, Currency.checkDec]
  constructor
  · rintro rfl he
    refine ⟨_, by rw [if_neg (by omega)]; rfl, ?_⟩
    simp only [amount, Currency.value, Option.getD_some, units]
    congr 3
    omega
  · intro hx
    split
    · rfl
    · rename_i he
      rcases hx with hx | hx
      · rw [if_pos hx]
      · omega

/-- **C125** (JSON) fails for longer texts: half a smallest unit is accepted, and lost, after 29 other digits. -/
theorem C125_json_false : ¬ ∀ (s : Str) (neg : Bool) (ds : Str) (e : Int), UnitsText s neg ds e → e < 0 → ∀ c, Currency.fromJson s ≠ .ok c := by
  intro h
  refine h ('1' :: List.replicate 28 '0' ++ ['.', '5']) false ('1' :: List.replicate 28 '0' ++ ['5']) (-1) ?_ (by decide) ⟨some ⟨false, 10 ^ 27, -8⟩⟩ (by decide +kernel)
  refine ⟨'1' :: List.replicate 28 '0' ++ ['.', '5'], ⟨[], [], by simp, by simp⟩, [], '1' :: List.replicate 28 '0', ['.', '5'], ['5'], [], by decide, .inl ⟨.inl rfl, rfl⟩,
    .inr rfl, rfl, by decide, ?_, .inl ⟨rfl, rfl⟩⟩
  intro c hc; rw [decDigit_iff]; revert c; decide

/-- **C125** (JSON, refused). A text that is no number is refused, and so are the empty text, infinity and "not a number". -/
theorem C125_json_refused (s : Str) (h : ∀ neg ds e, ¬ UnitsText s neg ds e) :
    Currency.fromJson s = .error .typeError ∨ Currency.fromJson s = .error .decimalInvalidOperation := by
  unfold Currency.fromJson
  by_cases hs : s = []
  · rw [if_pos hs]; exact .inl rfl
  · rw [if_neg hs]
    cases hr : parseDec s with
    | none => exact .inr rfl
    | some d =>
      cases d with
      | special => dsimp only; split <;> simp
      | fin d => obtain ⟨ds, -, ht⟩ := (units_fin s d).1 hr; exact absurd ht (h _ _ _)

example : UnitsText "\n12e2".toList false "12".toList 2 ∧ Currency.fromJson "\n12e2".toList = .ok ⟨some ⟨false, 12, -7⟩⟩ ∧
    Currency.fromJson "1.0".toList = .error .nameError ∧ Currency.fromJson "sNaN1".toList = .error .decimalInvalidOperation ∧
    Currency.fromJson "NaN".toList = .error .typeError ∧ Currency.fromJson "12 TFT".toList = .error .decimalInvalidOperation := by
  refine ⟨⟨"12e2".toList, ⟨['\n'], [], by decide, by decide⟩, [], ['1', '2'], [], [], ['e', '2'], by decide, .inl ⟨.inl rfl, rfl⟩, .inl ⟨rfl, rfl⟩,
    by decide, by decide, ?_, .inr ⟨'e', [], ['2'], rfl, .inl rfl, by decide, ?_, .inl ⟨.inl rfl, by decide⟩⟩⟩, by decide, by decide, by decide, by decide, by decide⟩
  all_goals (intro c hc; rw [decDigit_iff]; revert c; decide)

end TF.Props
