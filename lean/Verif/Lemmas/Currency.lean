import Verif.Lemmas.Text
import Verif.Spec.Amount
/-! Lemmas on decimals and currencies. -/
namespace TF
open Spec

theorem natStr_length_le (n : Nat) : (natStr n).length ≤ decPrec ↔ n < 10^28 := by
  unfold natStr decPrec; exact Nat.length_toDigits_le_iff (by decide) (by decide)

theorem decFix_of_lt {d : Dec} (h : d.coef < 10^28) : decFix d = d := by
  unfold decFix; rw [if_pos ((natStr_length_le _).2 h)]

theorem decFix_neg (d : Dec) : (decFix d).neg = d.neg := by
  unfold decFix; simp only; split <;> (try split) <;> rfl

theorem decFix_exp (d : Dec) : d.exp ≤ (decFix d).exp := by
  unfold decFix; simp only; split
  · exact Int.le_refl _
  · split <;> simp only <;> omega

theorem units_at {d : Dec} {e : Int} (h : d.neg = false) : d.at e = (d.coef * 10 ^ (d.exp - e).toNat : Nat) := by
  simp [Dec.at, h]

/-- Rescaling: the coefficient at a common exponent `e ≥ -9` times `10^(e+9)` is the number of units. -/
theorem coef_at_units {d : Dec} {e : Int} (he : -9 ≤ e) (hd : e ≤ d.exp) :
    d.coef * 10 ^ (d.exp - e).toNat * 10 ^ (e + 9).toNat = units d := by
  unfold units
  rw [Nat.mul_assoc, ← Nat.pow_add]
  congr 2; omega

theorem add_raw {a b : Dec} (ha : IsAmount a) (hb : IsAmount b) :
    ∃ c : Nat, ∃ e : Int, a.add b = decFix ⟨false, c, e⟩ ∧ -9 ≤ e ∧ c * 10 ^ (e + 9).toNat = units a + units b := by
  obtain ⟨ha1, ha2⟩ := ha
  obtain ⟨hb1, hb2⟩ := hb
  refine ⟨a.coef * 10 ^ (a.exp - min a.exp b.exp).toNat + b.coef * 10 ^ (b.exp - min a.exp b.exp).toNat, min a.exp b.exp, ?_, by omega, ?_⟩
  · unfold Dec.add
    simp only [units_at ha1, units_at hb1, ha1, hb1]
    congr 1
    simp only [Bool.and_self, Dec.mk.injEq, and_true]
    constructor
    · split
      · rfl
      · simp only [decide_eq_false_iff_not]; omega
    · omega
  · rw [Nat.add_mul, coef_at_units (by omega) (by omega), coef_at_units (by omega) (by omega)]

theorem sub_raw {a b : Dec} (ha : IsAmount a) (hb : IsAmount b) :
    ∃ c : Nat, ∃ e : Int, ∃ neg : Bool, a.sub b = decFix ⟨neg, c, e⟩ ∧ -9 ≤ e ∧
      (neg = true ↔ units a < units b) ∧ (units b ≤ units a → c * 10 ^ (e + 9).toNat = units a - units b) := by
  obtain ⟨ha1, ha2⟩ := ha
  obtain ⟨hb1, hb2⟩ := hb
  have hA := coef_at_units (d := a) (e := min a.exp b.exp) (by omega) (by omega)
  have hB := coef_at_units (d := b) (e := min a.exp b.exp) (by omega) (by omega)
  have hat : a.at (min a.exp b.exp) = (a.coef * 10 ^ (a.exp - min a.exp b.exp).toNat : Nat) := units_at ha1
  have hbt : b.negate.at (min a.exp b.exp) = - (b.coef * 10 ^ (b.exp - min a.exp b.exp).toNat : Nat) := by
    simp [Dec.at, Dec.negate, hb1]
  have hp : 0 < 10 ^ (min a.exp b.exp + 9).toNat := Nat.pow_pos (by decide)
  generalize hx : a.coef * 10 ^ (a.exp - min a.exp b.exp).toNat = x at *
  generalize hy : b.coef * 10 ^ (b.exp - min a.exp b.exp).toNat = y at *
  generalize hP : 10 ^ (min a.exp b.exp + 9).toNat = p at *
  have hmin : min a.exp b.negate.exp = min a.exp b.exp := rfl
  have e1 : a.sub b = decFix ⟨if (x:Int) + -(y:Int) = 0 then a.neg && b.negate.neg else decide ((x:Int) + -(y:Int) < 0), ((x:Int) + -(y:Int)).natAbs, min a.exp b.exp⟩ := by
    unfold Dec.sub Dec.add
    simp only [hmin, hat, hbt]
  have hlt : units a < units b ↔ x < y := by
    rw [← hA, ← hB]; exact Nat.mul_lt_mul_right hp
  refine ⟨_, _, _, e1, by omega, ?_, ?_⟩
  · rw [hlt]
    split
    · simp only [ha1, Bool.false_and, Bool.false_eq_true, false_iff]; omega
    · simp only [decide_eq_true_eq]; omega
  · intro h
    rw [← hA, ← hB] at h
    have hle : y ≤ x := Nat.le_of_mul_le_mul_right h hp
    have : ((x:Int) + -(y:Int)).natAbs = x - y := by omega
    rw [this, Nat.sub_mul, hP, hA, hB]

theorem checkDec_ok {d : Dec} (h : IsAmount d) : Currency.checkDec (.fin d) = .ok ⟨some d⟩ := by
  obtain ⟨h1, h2⟩ := h
  simp only [Currency.checkDec]
  rw [if_neg (by omega), h1]; rfl

theorem checkDec_good {l : DecLit} {c : Currency} (h : Currency.checkDec l = .ok c) :
    GoodCurrency c ∧ ∃ d, l = .fin d ∧ c = ⟨some d⟩ := by
  cases l with
  | special => simp [Currency.checkDec] at h
  | fin d =>
    simp only [Currency.checkDec] at h
    split at h
    · cases h
    · split at h
      · cases h
      · rename_i h1 h2
        cases h
        exact ⟨⟨by simpa [Currency.value] using h2, by simp only [Currency.value, Option.getD_some]; omega⟩, d, rfl, rfl⟩

theorem units_le_of_scaled {c : Nat} {e : Int} {n : Nat} (h : c * 10 ^ (e + 9).toNat = n) : c ≤ n := by
  rw [← h]; exact Nat.le_mul_of_pos_right _ (Nat.pow_pos (by decide))

/-! ### formatting -/

theorem digVal_replicate_append (k : Nat) (s : Str) : digVal (List.replicate k '0' ++ s) = digVal s := by
  unfold digVal; rw [Nat.ofDigitChars_append, Nat.ofDigitChars_replicate_zero]; simp

theorem digVal_append_replicate (s : Str) (k : Nat) : digVal (s ++ List.replicate k '0') = digVal s * 10 ^ k := by
  unfold digVal; rw [Nat.ofDigitChars_append, Nat.ofDigitChars_replicate_zero, Nat.mul_comm]

/-- `"{:.9f}"` of an amount: an integer part and a nine-digit fraction which together denote the units. -/
theorem fmt9_amount {d : Dec} (h : IsAmount d) :
    ∃ A F : Str, fmt9 d = A ++ '.' :: F ∧ A ≠ [] ∧ F.length = 9 ∧ (∀ c ∈ A ++ F, isDig c = true) ∧ digVal (A ++ F) = units d := by
  obtain ⟨h1, h2⟩ := h
  have hs : d.scaled9 = units d := by
    unfold Dec.scaled9 units; rw [if_pos (by omega)]
  generalize hp : List.replicate (10 - (natStr d.scaled9).length) '0' ++ natStr d.scaled9 = padded
  have hlen : 10 ≤ padded.length := by
    rw [← hp]; simp; omega
  refine ⟨padded.take (padded.length - 9), padded.drop (padded.length - 9), ?_, ?_, ?_, ?_, ?_⟩
  · unfold fmt9; simp only [hp, h1]; simp
  · intro h0; have := congrArg List.length h0; simp at this; omega
  · simp; omega
  · rw [List.take_append_drop]
    intro c hc
    rw [← hp] at hc
    simp only [List.mem_append, List.mem_replicate] at hc
    rcases hc with ⟨-, rfl⟩ | hc
    · rfl
    · exact natStr_digits _ c hc
  · rw [List.take_append_drop, ← hp, digVal_replicate_append, digVal_natStr, hs]

theorem filter_dot {s : Str} (h : ∀ c ∈ s, isDig c = true) : s.filter (· ≠ '.') = s := by
  rw [List.filter_eq_self]
  intro c hc; simpa using (isDig_facts (h c hc)).2.2.2.2.1

theorem toInt_eq {c : Currency} (h : GoodCurrency c) : c.toInt = amount c := by
  obtain ⟨A, F, hf, -, -, hd, hv⟩ := fmt9_amount h
  unfold Currency.toInt amount
  rw [hf, List.filter_append, List.filter_cons_of_neg (by simp),
    filter_dot (fun c hc => hd c (by simp [hc])), filter_dot (fun c hc => hd c (by simp [hc])), hv]

theorem rstrip_app_dot (p : Char → Bool) (A F : Str) (hp : p '.' = false) :
    rstrip p (A ++ '.' :: F) = A ++ '.' :: rstrip p F := by
  unfold rstrip
  rw [List.reverse_append, List.reverse_cons, List.append_assoc, List.dropWhile_append]
  split
  · rename_i h
    rw [List.isEmpty_iff] at h
    simp [hp, h]
  · simp

theorem rstrip_zeros (F : Str) (h : ∀ c ∈ F, isDig c = true) :
    ∃ k, F = rstrip (fun c => c == '0' || c == ' ') F ++ List.replicate k '0' := by
  unfold rstrip
  refine ⟨(F.reverse.takeWhile (fun c => c == '0' || c == ' ')).length, ?_⟩
  have h1 : F.reverse.takeWhile (fun c => c == '0' || c == ' ') = List.replicate (F.reverse.takeWhile (fun c => c == '0' || c == ' ')).length '0' := by
    rw [List.eq_replicate_iff]
    refine ⟨rfl, fun c hc => ?_⟩
    have hm : c ∈ F := List.mem_reverse.1 ((List.takeWhile_sublist _).subset hc)
    have ht := List.all_takeWhile (p := fun c => c == '0' || c == ' ') (l := F.reverse)
    rw [List.all_eq_true] at ht
    have := ht c hc
    simp only [Bool.or_eq_true, beq_iff_eq] at this
    rcases this with h' | h'
    · exact h'
    · exact absurd h' (isDig_facts (h c hm)).2.2.2.2.2.2.2.2
  have h2 := List.takeWhile_append_dropWhile (p := fun c => c == '0' || c == ' ') (l := F.reverse)
  have h3 := congrArg List.reverse h2
  rw [List.reverse_append, List.reverse_reverse, h1, List.reverse_replicate] at h3
  simpa using h3.symm

/-- The text of an amount: integer digits, and after a point the fraction without trailing zeros, if any. -/
theorem str_amount {c : Currency} (h : GoodCurrency c) :
    ∃ A F : Str, c.str false = (if F = [] then A else A ++ '.' :: F) ∧ A ≠ [] ∧ F.length ≤ 9 ∧
      (∀ c ∈ A ++ F, isDig c = true) ∧ digVal (A ++ F) * 10 ^ (9 - F.length) = amount c := by
  obtain ⟨A, F, hf, hA, hF, hd, hv⟩ := fmt9_amount h
  obtain ⟨k, hk⟩ := rstrip_zeros F (fun c hc => hd c (by simp [hc]))
  generalize hF' : rstrip (fun c => c == '0' || c == ' ') F = F' at hk
  have hkl : F'.length + k = 9 := by have := congrArg List.length hk; simp [hF] at this; omega
  refine ⟨A, F', ?_, hA, by omega, ?_, ?_⟩
  · unfold Currency.str
    simp only [hf]
    rw [rstrip_app_dot _ _ _ (by decide), hF']
    by_cases h0 : F' = []
    · subst h0
      simp [hA]
    · have hl : ∃ x, F'.getLast? = some x ∧ isDig x = true := by
        refine ⟨F'.getLast h0, List.getLast?_eq_some_getLast h0, ?_⟩
        exact hd _ (by rw [hk]; simp)
      obtain ⟨x, hx, hxd⟩ := hl
      have : (A ++ '.' :: F').getLast? = some x := by
        rw [List.getLast?_append, List.getLast?_cons, hx]; simp
      rw [this, if_neg h0]
      have hne : ¬ (some x = some '.') := by
        intro hh; exact (isDig_facts hxd).2.2.2.2.1 (Option.some.inj hh)
      simp [hne]
  · intro c hc; apply hd; rw [hk]
    simp only [List.mem_append] at hc ⊢
    rcases hc with hc | hc
    · exact .inl hc
    · exact .inr (.inl hc)
  · have : 9 - F'.length = k := by omega
    rw [this, ← digVal_append_replicate, List.append_assoc, ← hk, hv]; rfl

/-! ### parsing -/

theorem takeWhile_digits (A : Str) (h : ∀ c ∈ A, isDig c = true) (t : Str) (ht : ∀ c, t.head? = some c → isDig c = false) :
    (A ++ t).takeWhile isDig = A ∧ (A ++ t).dropWhile isDig = t := by
  induction A with
  | nil =>
    cases t with
    | nil => exact ⟨rfl, rfl⟩
    | cons c t => simp [ht c rfl]
  | cons a A ih =>
    have := ih (fun c hc => h c (by simp [hc]))
    simp [h a (by simp), this]

theorem parseUnsigned_amount (A F : Str) (hA : A ≠ []) (hd : ∀ c ∈ A ++ F, isDig c = true) (neg : Bool) :
    parseUnsignedDec neg (if F = [] then A else A ++ '.' :: F) = some ⟨neg, digVal (A ++ F), - (F.length : Int)⟩ := by
  have hdA : ∀ c ∈ A, isDig c = true := fun c hc => hd c (by simp [hc])
  have hdF : ∀ c ∈ F, isDig c = true := fun c hc => hd c (by simp [hc])
  split
  · rename_i h; subst h
    obtain ⟨t1, t2⟩ := takeWhile_digits A hdA [] (by simp)
    rw [List.append_nil] at t1 t2
    unfold parseUnsignedDec
    simp [t1, t2, hA]
  · obtain ⟨t1, t2⟩ := takeWhile_digits A hdA ('.' :: F) (by simp [isDig])
    obtain ⟨u1, u2⟩ := takeWhile_digits F hdF [] (by simp)
    rw [List.append_nil] at u1 u2
    unfold parseUnsignedDec
    simp [t1, t2, u1, u2, hA]

/-- Text that starts with a digit and has only digits and points is read as it stands. -/
theorem parseDec_plain (s : Str) (hne : s ≠ []) (hh : ∀ c, s.head? = some c → isDig c = true)
    (hl : ∀ c ∈ s, isDig c = true ∨ c = '.') : parseDec s = (parseUnsignedDec false s).map .fin := by
  have hsp : ∀ c ∈ s, isPySpace c = false := by
    intro c hc
    rcases hl c hc with h | rfl
    · exact (isDig_facts h).1
    · decide
  have h1 : strip s = s := strip_eq_self (fun c hc => hsp c (List.mem_of_head? hc)) (fun c hc => hsp c (List.mem_of_getLast? hc))
  have h2 : s.filter (· ≠ '_') = s := by
    rw [List.filter_eq_self]; intro c hc
    rcases hl c hc with h | rfl
    · simpa using (isDig_facts h).2.1
    · decide
  have h0 : s.map asciiDigit = s := map_asciiDigit fun c hc => by
    rcases hl c hc with h | rfl
    · exact isDig_ascii h
    · decide
  cases s with
  | nil => exact absurd rfl hne
  | cons c cs =>
    have hc := isDig_facts (hh c rfl)
    have h3 : splitSign (c :: cs) = (false, c :: cs) := by
      unfold splitSign
      split
      · rename_i heq; cases heq; exact absurd rfl hc.2.2.2.1
      · rename_i heq; cases heq; exact absurd rfl hc.2.2.1
      · rfl
    have h4 : isSpecialDec (c :: cs) = false := by
      have hu : upper (c :: cs) = c :: upper cs := by simp [upper, hc.2.2.2.2.2.2.2.1]
      have hdig := hh c rfl
      have hneq : ∀ d : Char, isDig d = false → c ≠ d := by
        intro d hd h; subst h; rw [hdig] at hd; cases hd
      have n1 := hneq 'I' (by decide)
      have n2 := hneq 'N' (by decide)
      have n3 := hneq 'S' (by decide)
      unfold isSpecialDec
      simp [hu, n1, n2, n3]
    unfold parseDec
    rw [h0, h1, h2, h3]
    simp [h4]

theorem parseDec_natStr (n : Nat) : parseDec (natStr n) = some (.fin ⟨false, n, 0⟩) := by
  have hd := natStr_digits n
  rw [parseDec_plain _ (natStr_ne_nil n) (fun c hc => hd c (List.mem_of_head? hc)) (fun c hc => .inl (hd c hc))]
  have := parseUnsigned_amount (natStr n) [] (natStr_ne_nil n) (by simpa using hd) false
  simp at this
  rw [this]; rfl

end TF

namespace TF
open Spec

theorem cmp_units {a b : Dec} (ha : IsAmount a) (hb : IsAmount b) :
    (a.lt b = true ↔ units a < units b) ∧ (a.eqv b = true ↔ units a = units b) := by
  have hA := coef_at_units (d := a) (e := min a.exp b.exp) (by have := ha.2; have := hb.2; omega) (by omega)
  have hB := coef_at_units (d := b) (e := min a.exp b.exp) (by have := ha.2; have := hb.2; omega) (by omega)
  have hp : 0 < 10 ^ (min a.exp b.exp + 9).toNat := Nat.pow_pos (by decide)
  unfold Dec.lt Dec.eqv
  simp only [decide_eq_true_eq, units_at ha.1, units_at hb.1]
  rw [← hA, ← hB]
  constructor
  · rw [Nat.mul_lt_mul_right hp]; omega
  · rw [Nat.mul_left_inj (by omega)]; omega

theorem good_none : GoodCurrency ⟨none⟩ := ⟨rfl, by decide⟩

theorem currency_set_good {v : CVal} {c : Currency} (hv : ∀ c', v = .cur c' → GoodCurrency c')
    (h : Currency.set v = .ok c) : GoodCurrency c := by
  cases v with
  | none => cases h; exact good_none
  | cur c' => cases h; exact hv c' rfl
  | int i => simp only [Currency.set] at h; exact (checkDec_good h).1
  | str s =>
    simp only [Currency.set] at h
    split at h
    · cases h
    · exact (checkDec_good h).1
  | dec d => simp only [Currency.set] at h; exact (checkDec_good h).1
  | other => cases h

theorem asCurrency_good {o : COperand} {c : Currency} (ho : ∀ c', o = .cur c' → GoodCurrency c')
    (h : o.asCurrency = .ok c) : GoodCurrency c := by
  cases o with
  | int i => exact currency_set_good (v := .int i) (by simp) h
  | str s => exact currency_set_good (v := .str s) (by simp) h
  | float r =>
    simp only [COperand.asCurrency] at h
    split at h
    · cases h
    · exact currency_set_good (v := .dec _) (by simp) h
  | cur c' => cases h; exact ho _ rfl
  | other => cases h

theorem add_good {c r : Currency} {o : COperand} (h : c.add o = .ok r) : GoodCurrency r := by
  unfold Currency.add at h
  cases ho : o.asCurrency with
  | error e => simp [ho, bind, Except.bind] at h
  | ok b => simp only [ho, bind, Except.bind] at h; exact currency_set_good (v := .dec _) (by simp) h

theorem sub_good {c r : Currency} {o : COperand} (h : c.sub o = .ok r) : GoodCurrency r := by
  unfold Currency.sub at h
  cases ho : o.asCurrency with
  | error e => simp [ho, bind, Except.bind] at h
  | ok b => simp only [ho, bind, Except.bind] at h; exact currency_set_good (v := .dec _) (by simp) h

theorem mul_good {c r : Currency} {o : COperand} (h : c.mul o = .ok r) : GoodCurrency r := by
  unfold Currency.mul at h
  cases ho : o.asCurrency with
  | error e => simp [ho, bind, Except.bind] at h
  | ok b => simp only [ho, bind, Except.bind] at h; exact currency_set_good (v := .dec _) (by simp) h

/-! ### minimal big-endian -/

theorem minBytes_spec (n : Nat) : n < 256 ^ minBytes n ∧ (n ≠ 0 → 256 ^ (minBytes n - 1) ≤ n) ∧ (n = 0 ↔ minBytes n = 0) := by
  by_cases h0 : n = 0
  · subst h0; decide
  · have hb : bitLength n = Nat.log2 n + 1 := by simp [bitLength, h0]
    have hlt : n < 2 ^ (Nat.log2 n + 1) := Nat.lt_log2_self
    have hge : 2 ^ Nat.log2 n ≤ n := Nat.log2_self_le h0
    have hm : 8 * (minBytes n - 1) ≤ Nat.log2 n ∧ Nat.log2 n + 1 ≤ 8 * minBytes n := by
      unfold minBytes; simp only [hb]; split <;> omega
    have e : ∀ k, 256 ^ k = 2 ^ (8 * k) := fun k => by rw [Nat.pow_mul]
    refine ⟨?_, fun _ => ?_, ?_⟩
    · rw [e]; exact Nat.lt_of_lt_of_le hlt (Nat.pow_le_pow_right (by decide) hm.2)
    · rw [e]; exact Nat.le_trans (Nat.pow_le_pow_right (by decide) hm.1) hge
    · simp only [h0, false_iff]; omega

theorem beValue_cons (x : UInt8) (bs : Bytes) : beValue (x :: bs) = x.toNat * 256 ^ bs.length + beValue bs := by
  have := beValue_append [x] bs
  simpa [beValue] using this

theorem beValue_lt (bs : Bytes) : beValue bs < 256 ^ bs.length := by
  have := leValue_lt bs.reverse
  rw [← beValue_reverse, List.reverse_reverse, List.length_reverse] at this
  exact this

theorem minBytes_head (n : Nat) : (toBytesBE (minBytes n) n).head? ≠ some 0 := by
  intro h
  obtain ⟨h1, h2, h3⟩ := minBytes_spec n
  cases hb : toBytesBE (minBytes n) n with
  | nil => rw [hb] at h; cases h
  | cons x t =>
    rw [hb] at h
    simp only [List.head?_cons, Option.some.injEq] at h
    subst h
    have hl : t.length + 1 = minBytes n := by
      have := congrArg List.length hb; simp at this; omega
    have hv := beValue_toBytesBE (minBytes n) n
    rw [hb, beValue_cons, Nat.mod_eq_of_lt h1] at hv
    have hlt := beValue_lt t
    have hn0 : n ≠ 0 := fun h => by have := h3.1 h; omega
    have := h2 hn0
    have e : minBytes n - 1 = t.length := by omega
    rw [e] at this
    simp at hv
    omega

end TF
