import Verif.Model.Primitive
import Verif.Lemmas.Encoders
/-! Lemmas on hex, base64 and decimal text. -/
namespace TF
open Spec

theorem hexVal_digitChar {n : Nat} (h : n < 16) : hexVal (Nat.digitChar n) = some n := by
  have : ∀ k : Fin 16, hexVal (Nat.digitChar k.val) = some k.val := by decide
  exact this ⟨n, h⟩

theorem digitChar_not_space {n : Nat} (h : n < 16) : isAsciiSpace (Nat.digitChar n) = false := by
  have : ∀ k : Fin 16, isAsciiSpace (Nat.digitChar k.val) = false := by decide
  exact this ⟨n, h⟩

theorem fromHex_toHex (b : Bytes) : fromHex (toHex b) = some b := by
  induction b with
  | nil => rfl
  | cons x b ih =>
    have hx := x.toNat_lt
    have h1 : x.toNat / 16 < 16 := by omega
    have h2 : x.toNat % 16 < 16 := by omega
    have e : toHex (x :: b) = Nat.digitChar (x.toNat / 16) :: Nat.digitChar (x.toNat % 16) :: toHex b := rfl
    rw [e, fromHex, digitChar_not_space h1, hexVal_digitChar h1, hexVal_digitChar h2, ih]
    simp only [Bool.false_eq_true, ↓reduceIte, Option.bind_eq_bind, Option.bind_some, Option.pure_def, Option.some.injEq,
      List.cons.injEq, and_true]
    have : x.toNat / 16 * 16 + x.toNat % 16 = x.toNat := by omega
    rw [this]; simp

theorem toHex_length (b : Bytes) : (toHex b).length = 2 * b.length := by
  induction b with
  | nil => rfl
  | cons x b ih =>
    have e : toHex (x :: b) = Nat.digitChar (x.toNat / 16) :: Nat.digitChar (x.toNat % 16) :: toHex b := rfl
    rw [e]; simp [ih]; omega

theorem toHex_inj {a b : Bytes} (h : toHex a = toHex b) : a = b := by
  have := congrArg fromHex h
  rw [fromHex_toHex, fromHex_toHex] at this
  exact Option.some.inj this

theorem toHex_append (a b : Bytes) : toHex (a ++ b) = toHex a ++ toHex b := by simp [toHex]

/-- The first two characters of hex text are never `0x`/`0X`. -/
theorem toHex_take2 (b : Bytes) : (toHex b).take 2 ≠ ['0', 'x'] ∧ (toHex b).take 2 ≠ ['0', 'X'] := by
  cases b with
  | nil => simp [toHex]
  | cons x b =>
    have e : toHex (x :: b) = Nat.digitChar (x.toNat / 16) :: Nat.digitChar (x.toNat % 16) :: toHex b := rfl
    have : ∀ k : Fin 16, Nat.digitChar k.val ≠ 'x' ∧ Nat.digitChar k.val ≠ 'X' := by decide
    have h := this ⟨x.toNat % 16, by omega⟩
    rw [e]
    simp only [List.take_succ_cons, List.take_zero, ne_eq, List.cons.injEq, and_true, not_and]
    exact ⟨fun _ => h.1, fun _ => h.2⟩

theorem b64Val_b64Char {n : Nat} (h : n < 64) : b64Val (b64Char n) = some n ∧ b64Char n ≠ '=' ∧ (b64Char n).toNat < 128 := by
  have : ∀ k : Fin 64, b64Val (b64Char k.val) = some k.val ∧ b64Char k.val ≠ '=' ∧ (b64Char k.val).toNat < 128 := by decide
  exact this ⟨n, h⟩

theorem b64Loop_char0 {n : Nat} (h : n < 64) (cs : Str) (left pads : Nat) :
    b64Loop (b64Char n :: cs) 0 left pads = b64Loop cs 1 n 0 := by
  obtain ⟨h1, h2, -⟩ := b64Val_b64Char h
  rw [b64Loop, if_neg h2, h1]; rfl

theorem b64Loop_char1 {n : Nat} (h : n < 64) (cs : Str) (left pads : Nat) :
    b64Loop (b64Char n :: cs) 1 left pads = (UInt8.ofNat (left * 4 + n / 16) :: ·) <$> b64Loop cs 2 (n % 16) 0 := by
  obtain ⟨h1, h2, -⟩ := b64Val_b64Char h
  rw [b64Loop, if_neg h2, h1]; rfl

theorem b64Loop_char2 {n : Nat} (h : n < 64) (cs : Str) (left pads : Nat) :
    b64Loop (b64Char n :: cs) 2 left pads = (UInt8.ofNat (left * 16 + n / 4) :: ·) <$> b64Loop cs 3 (n % 4) 0 := by
  obtain ⟨h1, h2, -⟩ := b64Val_b64Char h
  rw [b64Loop, if_neg h2, h1]; rfl

theorem b64Loop_char3 {n : Nat} (h : n < 64) (cs : Str) (left pads : Nat) :
    b64Loop (b64Char n :: cs) 3 left pads = (UInt8.ofNat (left * 64 + n) :: ·) <$> b64Loop cs 0 0 0 := by
  obtain ⟨h1, h2, -⟩ := b64Val_b64Char h
  rw [b64Loop, if_neg h2, h1]; rfl

theorem b64Loop_toB64 (b : Bytes) : b64Loop (toB64 b) 0 0 0 = some b := by
  fun_induction toB64 b with
  | case1 => rfl
  | case2 a =>
    have ha := a.toNat_lt
    have e : a.toNat / 4 * 4 + a.toNat % 4 * 16 / 16 = a.toNat := by omega
    rw [b64Loop_char0 (by omega), b64Loop_char1 (by omega), e]
    simp [b64Loop]
  | case3 a b =>
    have ha := a.toNat_lt
    have hb := b.toNat_lt
    have e : a.toNat / 4 * 4 + (a.toNat % 4 * 16 + b.toNat / 16) / 16 = a.toNat := by omega
    have e2 : (a.toNat % 4 * 16 + b.toNat / 16) % 16 * 16 + b.toNat % 16 * 4 / 4 = b.toNat := by omega
    rw [b64Loop_char0 (by omega), b64Loop_char1 (by omega), b64Loop_char2 (by omega), e, e2]
    simp [b64Loop]
  | case4 a b c rest ih =>
    have ha := a.toNat_lt
    have hb := b.toNat_lt
    have hc := c.toNat_lt
    have e : a.toNat / 4 * 4 + (a.toNat % 4 * 16 + b.toNat / 16) / 16 = a.toNat := by omega
    have e2 : (a.toNat % 4 * 16 + b.toNat / 16) % 16 * 16 + (b.toNat % 16 * 4 + c.toNat / 64) / 4 = b.toNat := by omega
    have e3 : (b.toNat % 16 * 4 + c.toNat / 64) % 4 * 64 + c.toNat % 64 = c.toNat := by omega
    rw [b64Loop_char0 (by omega), b64Loop_char1 (by omega), b64Loop_char2 (by omega), b64Loop_char3 (by omega), e, e2, e3, ih]
    simp

theorem toB64_ascii (b : Bytes) : (toB64 b).all (fun c => decide (c.toNat < 128)) = true := by
  fun_induction toB64 b with
  | case1 => rfl
  | case2 a =>
    have ha := a.toNat_lt
    simp [(b64Val_b64Char (n := a.toNat / 4) (by omega)).2.2, (b64Val_b64Char (n := a.toNat % 4 * 16) (by omega)).2.2]
  | case3 a b =>
    have ha := a.toNat_lt
    have hb := b.toNat_lt
    simp [(b64Val_b64Char (n := a.toNat / 4) (by omega)).2.2,
      (b64Val_b64Char (n := a.toNat % 4 * 16 + b.toNat / 16) (by omega)).2.2,
      (b64Val_b64Char (n := b.toNat % 16 * 4) (by omega)).2.2]
  | case4 a b c rest ih =>
    have ha := a.toNat_lt
    have hb := b.toNat_lt
    have hc := c.toNat_lt
    simp [(b64Val_b64Char (n := a.toNat / 4) (by omega)).2.2,
      (b64Val_b64Char (n := a.toNat % 4 * 16 + b.toNat / 16) (by omega)).2.2,
      (b64Val_b64Char (n := b.toNat % 16 * 4 + c.toNat / 64) (by omega)).2.2,
      (b64Val_b64Char (n := c.toNat % 64) (by omega)).2.2]
    simpa using ih

theorem fromB64_toB64 (b : Bytes) : fromB64 (toB64 b) = some b := by
  rw [fromB64, if_pos (toB64_ascii b), b64Loop_toB64]

theorem strenc_roundtrip (e : StrEnc) (b : Bytes) : e.fromStr (e.toStr b) = some b := by
  cases e
  · exact fromHex_toHex b
  · exact fromHex_toHex b
  · exact fromB64_toB64 b
  · simp [StrEnc.fromStr, StrEnc.toStr, fromHex_toHex]

theorem strenc_toStr_eq_nil (e : StrEnc) (b : Bytes) (h : e.toStr b = []) : b = [] := by
  have := strenc_roundtrip e b
  rw [h] at this
  cases e <;> simp [StrEnc.fromStr, fromHex, fromB64, b64Loop] at this <;> exact this

/-! decimal digits -/

theorem digitChar_isDig {n : Nat} (h : n < 10) : isDig (Nat.digitChar n) = true := by
  have : ∀ k : Fin 10, isDig (Nat.digitChar k.val) = true := by decide
  exact this ⟨n, h⟩

theorem natStr_digits (n : Nat) : ∀ c ∈ natStr n, isDig c = true := by
  unfold natStr
  induction n using Nat.strongRecOn with
  | _ n ih =>
    rw [Nat.toDigits_eq_if (by decide)]
    split
    · intro c hc; simp at hc; subst hc; exact digitChar_isDig (by omega)
    · intro c hc
      simp only [List.mem_append, List.mem_singleton] at hc
      rcases hc with hc | rfl
      · exact ih (n/10) (by omega) c hc
      · exact digitChar_isDig (by omega)

theorem natStr_ne_nil (n : Nat) : natStr n ≠ [] := Nat.toDigits_ne_nil

@[simp] theorem digVal_natStr (n : Nat) : digVal (natStr n) = n := by
  simp [digVal, natStr]

theorem isDig_facts {c : Char} (h : isDig c = true) :
    isPySpace c = false ∧ c ≠ '_' ∧ c ≠ '+' ∧ c ≠ '-' ∧ c ≠ '.' ∧ c ≠ 'e' ∧ c ≠ 'E' ∧ c.toUpper = c ∧ c ≠ ' ' := by
  simp only [isDig, decide_eq_true_eq] at h
  have key : ∀ d : Char, ¬ (48 ≤ d.toNat ∧ d.toNat ≤ 57) → c ≠ d := by
    intro d hd hc; subst hc; exact hd h
  refine ⟨?_, key _ (by decide), key _ (by decide), key _ (by decide), key _ (by decide), key _ (by decide), key _ (by decide), ?_, key _ (by decide)⟩
  · simp only [isPySpace, Bool.or_eq_false_iff, Bool.and_eq_false_iff, decide_eq_false_iff_not, beq_eq_false_iff_ne]
    omega
  · have h1 : ¬ c.isLower := by
      simp only [Char.isLower, Bool.and_eq_true, decide_eq_true_eq, not_and]
      intro h1
      have : (97:Nat) ≤ c.toNat := h1
      omega
    have : c.toUpper = c := by
      unfold Char.toUpper
      rw [dif_neg]
      intro hh
      have : (97:Nat) ≤ c.toNat := hh.1
      omega
    exact this

theorem dropWhile_eq_self {p : Char → Bool} {s : Str} (h : ∀ c, s.head? = some c → p c = false) : s.dropWhile p = s := by
  cases s with
  | nil => rfl
  | cons c s => rw [List.dropWhile_cons, h c rfl]; rfl

theorem rstrip_eq_self {p : Char → Bool} {s : Str} (h : ∀ c, s.getLast? = some c → p c = false) : rstrip p s = s := by
  unfold rstrip
  rw [dropWhile_eq_self]
  · simp
  · intro c hc; apply h; simpa using hc

theorem strip_eq_self {s : Str} (h1 : ∀ c, s.head? = some c → isPySpace c = false)
    (h2 : ∀ c, s.getLast? = some c → isPySpace c = false) : strip s = s := by
  unfold strip lstrip
  rw [dropWhile_eq_self h1, rstrip_eq_self h2]

theorem asciiDigit_ascii {c : Char} (h : c.toNat < 128) : asciiDigit c = c := by unfold asciiDigit; rw [if_pos h]

theorem map_asciiDigit {s : Str} (h : ∀ c ∈ s, c.toNat < 128) : s.map asciiDigit = s := by
  induction s with
  | nil => rfl
  | cons c s ih => rw [List.map_cons, asciiDigit_ascii (h c (by simp)), ih fun d hd => h d (by simp [hd])]

theorem isDig_ascii {c : Char} (h : isDig c = true) : c.toNat < 128 := by
  simp only [isDig, decide_eq_true_eq] at h; omega

theorem intSpace_of {c : Char} (h : isPySpace c = false) : isIntSpace c = false := by simp [isIntSpace, h]

theorem intText_eq_self {s : Str} (ha : ∀ c ∈ s, c.toNat < 128) (h1 : ∀ c, s.head? = some c → isPySpace c = false)
    (h2 : ∀ c, s.getLast? = some c → isPySpace c = false) : intText s = s := by
  unfold intText lstrip
  rw [map_asciiDigit ha, dropWhile_eq_self (fun c hc => intSpace_of (h1 c hc)), rstrip_eq_self (fun c hc => intSpace_of (h2 c hc))]

theorem usDigits_of_digits (s : Str) (hs : ∀ c ∈ s, isDig c = true) : ∀ prev, (prev = true ∨ s ≠ []) → usDigits prev s = some s := by
  induction s with
  | nil => intro prev h; simp at h; simp [usDigits, h]
  | cons c s ih =>
    intro prev _
    rw [usDigits, if_pos (hs c (by simp)), ih (fun d hd => hs d (by simp [hd])) true (.inl rfl)]
    rfl

theorem pyInt_natStr (n : Nat) : pyInt (natStr n) = some (n : Int) := by
  have hd := natStr_digits n
  have hs : intText (natStr n) = natStr n := intText_eq_self (fun c hc => isDig_ascii (hd c hc))
    (fun c hc => (isDig_facts (hd c (List.mem_of_head? hc))).1)
    (fun c hc => (isDig_facts (hd c (List.mem_of_getLast? hc))).1)
  have hsg : splitSign (natStr n) = (false, natStr n) := by
    cases h : natStr n with
    | nil => exact absurd h (natStr_ne_nil n)
    | cons c cs =>
      have hc := isDig_facts (hd c (by simp [h]))
      unfold splitSign
      split
      · rename_i heq; cases heq; exact absurd rfl hc.2.2.2.1
      · rename_i heq; cases heq; exact absurd rfl hc.2.2.1
      · rfl
  unfold pyInt
  rw [hs, hsg]
  simp [usDigits_of_digits _ hd false (.inr (natStr_ne_nil n))]

end TF
