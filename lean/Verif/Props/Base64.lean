import Verif.Spec.Base64
import Verif.Spec.Encoding
/-! # C127 for data in base64 -/
namespace TF.Props
open TF TF.Spec

theorem b64Val_iff (c : Char) (n : Nat) : b64Val c = some n ↔ Base64Value c n := by
  have hle : ∀ a b : Char, a ≤ b ↔ a.toNat ≤ b.toNat := fun a b => Iff.rfl
  have e1 : 'A'.toNat = 65 := rfl
  have e2 : 'Z'.toNat = 90 := rfl
  have e3 : 'a'.toNat = 97 := rfl
  have e4 : 'z'.toNat = 122 := rfl
  have e5 : '0'.toNat = 48 := rfl
  have e6 : '9'.toNat = 57 := rfl
  have e7 : '+'.toNat = 43 := rfl
  have e8 : '/'.toNat = 47 := rfl
  have hp : c = '+' → c.toNat = 43 := by rintro rfl; rfl
  have hs : c = '/' → c.toNat = 47 := by rintro rfl; rfl
  have hps : c = '+' → c ≠ '/' := by rintro rfl; decide
  unfold b64Val Base64Value
  simp only [hle, e1, e2, e3, e4, e5, e6]
  by_cases h1 : c = '+'
  · have := hp h1
    have := hps h1
    simp [h1, e7]; omega
  · by_cases h2 : c = '/'
    · have := hs h2
      simp [h2, e8]; omega
    · simp only [h1, h2, false_and, or_false, if_false]
      split
      · simp only [Option.some.injEq]; omega
      · split
        · simp only [Option.some.injEq]; omega
        · split
          · simp only [Option.some.injEq]; omega
          · simp only [reduceCtorEq, false_iff]; omega

theorem b64Val_none (c : Char) : b64Val c = none ↔ ∀ n, ¬ Base64Value c n := by
  simp only [← b64Val_iff]
  constructor
  · intro h n; rw [h]; simp
  · intro h
    cases e : b64Val c with
    | none => rfl
    | some n => exact absurd e (h n)

theorem pad_none : b64Val '=' = none := by decide

/-- What remains of a text after three digits of a group, after two with `p` padding characters already seen, and after one. -/
def Rest3 (l : Nat) (s : Str) (b : Bytes) : Prop :=
  ∃ j, NoDigits j ∧ '=' ∉ j ∧ ((∃ c n t b', s = j ++ c :: t ∧ Base64Value c n ∧ b = UInt8.ofNat (l * 64 + n) :: b' ∧ Base64Text t b') ∨ ∃ t, s = j ++ '=' :: t ∧ b = [])
@[inherit_doc Rest3]
def Rest2 (l p : Nat) (s : Str) (b : Bytes) : Prop :=
  ∃ j, NoDigits j ∧ ((j.count '=' + p ≤ 1 ∧ ∃ c n t b', s = j ++ c :: t ∧ Base64Value c n ∧ b = UInt8.ofNat (l * 16 + n / 4) :: b' ∧ Rest3 (n % 4) t b') ∨
    (j.count '=' + p = 1 ∧ ∃ t, s = j ++ '=' :: t ∧ b = []))
@[inherit_doc Rest3]
def Rest1 (l : Nat) (s : Str) (b : Bytes) : Prop :=
  ∃ j c n t b', NoDigits j ∧ s = j ++ c :: t ∧ Base64Value c n ∧ b = UInt8.ofNat (l * 4 + n / 16) :: b' ∧ Rest2 (n % 16) 0 t b'

theorem base64_rest (s : Str) (b : Bytes) : Base64Text s b ↔ (NoDigits s ∧ b = []) ∨ ∃ j c n t, NoDigits j ∧ s = j ++ c :: t ∧ Base64Value c n ∧ Rest1 n t b := by
  constructor
  · intro h
    cases h with
    | done _ h => exact .inl ⟨h, rfl⟩
    | three j0 j1 j2 j3 c0 c1 c2 c3 n0 n1 n2 n3 t b' a0 v0 a1 v1 a2 k2 v2 a3 k3 v3 h =>
      exact .inr ⟨j0, c0, n0, _, a0, rfl, v0, j1, c1, n1, _, _, a1, rfl, v1, rfl, j2, a2, .inl ⟨k2, c2, n2, _, _, rfl, v2, rfl, j3, a3, k3, .inl ⟨c3, n3, t, b', rfl, v3, rfl, h⟩⟩⟩
    | two j0 j1 j2 j3 c0 c1 c2 n0 n1 n2 t a0 v0 a1 v1 a2 k2 v2 a3 k3 =>
      exact .inr ⟨j0, c0, n0, _, a0, rfl, v0, j1, c1, n1, _, _, a1, rfl, v1, rfl, j2, a2, .inl ⟨k2, c2, n2, _, _, rfl, v2, rfl, j3, a3, k3, .inr ⟨t, rfl, rfl⟩⟩⟩
    | one j0 j1 j2 c0 c1 n0 n1 t a0 v0 a1 v1 a2 k2 =>
      exact .inr ⟨j0, c0, n0, _, a0, rfl, v0, j1, c1, n1, _, _, a1, rfl, v1, rfl, j2, a2, .inr ⟨k2, t, rfl, rfl⟩⟩
  · rintro (⟨h, rfl⟩ | ⟨j0, c0, n0, _, a0, rfl, v0, j1, c1, n1, _, _, a1, rfl, v1, rfl, j2, a2, ⟨k2, c2, n2, _, _, rfl, v2, rfl, j3, a3, k3, ⟨c3, n3, t, b', rfl, v3, rfl, h⟩ | ⟨t, rfl, rfl⟩⟩ | ⟨k2, t, rfl, rfl⟩⟩)
    · exact .done _ h
    · exact .three j0 j1 j2 j3 c0 c1 c2 c3 n0 n1 n2 n3 t b' a0 v0 a1 v1 a2 k2 v2 a3 k3 v3 h
    · exact .two j0 j1 j2 j3 c0 c1 c2 n0 n1 n2 t a0 v0 a1 v1 a2 k2 v2 a3 k3
    · exact .one j0 j1 j2 c0 c1 n0 n1 t a0 v0 a1 v1 a2 k2

theorem noDigits_cons {c : Char} {s : Str} : NoDigits (c :: s) ↔ (∀ n, ¬ Base64Value c n) ∧ NoDigits s := by simp [NoDigits]
theorem noDigits_nil : NoDigits [] := by simp [NoDigits]

/-- Splitting a text at a character that is part of the noise, or is not. -/
theorem split_cons {c : Char} {s : Str} {P : Str → Char → Str → Prop} :
    (∃ j d t, NoDigits j ∧ c :: s = j ++ d :: t ∧ P j d t) ↔ P [] c s ∨ (∀ n, ¬ Base64Value c n) ∧ ∃ j d t, NoDigits j ∧ s = j ++ d :: t ∧ P (c :: j) d t := by
  constructor
  · rintro ⟨j, d, t, hj, e, h⟩
    cases j with
    | nil => cases e; exact .inl h
    | cons x j =>
      rw [List.cons_append] at e
      obtain ⟨rfl, rfl⟩ := List.cons.inj e
      rw [noDigits_cons] at hj
      exact .inr ⟨hj.1, j, d, t, hj.2, rfl, h⟩
  · rintro (h | ⟨hc, j, d, t, hj, rfl, h⟩)
    · exact ⟨[], c, s, noDigits_nil, rfl, h⟩
    · exact ⟨c :: j, d, t, noDigits_cons.2 ⟨hc, hj⟩, rfl, h⟩

theorem map_cons_iff {x : UInt8} {o : Option Bytes} {b : Bytes} : ((x :: ·) <$> o) = some b ↔ ∃ b', o = some b' ∧ b = x :: b' := by
  cases o <;> simp [eq_comm]

theorem val_unique {c : Char} {n m : Nat} (h : Base64Value c n) (h' : Base64Value c m) : n = m := by
  rw [← b64Val_iff] at h h'; rw [h] at h'; exact Option.some.inj h'

/-- One character of a text in each state. -/
theorem rest0_cons (c : Char) (s : Str) (b : Bytes) : Base64Text (c :: s) b ↔ match b64Val c with
    | none => Base64Text s b
    | some n => Rest1 n s b := by
  have e : (∃ j d n t, NoDigits j ∧ c :: s = j ++ d :: t ∧ Base64Value d n ∧ Rest1 n t b) ↔ ∃ j d t, NoDigits j ∧ c :: s = j ++ d :: t ∧ ∃ n, Base64Value d n ∧ Rest1 n t b :=
    ⟨fun ⟨j, d, n, t, h1, h2, h⟩ => ⟨j, d, t, h1, h2, n, h⟩, fun ⟨j, d, t, h1, h2, n, h⟩ => ⟨j, d, n, t, h1, h2, h⟩⟩
  rw [base64_rest, e, split_cons (P := fun _ d t => ∃ n, Base64Value d n ∧ Rest1 n t b), noDigits_cons]
  cases hv : b64Val c with
  | none =>
    have hn := (b64Val_none c).1 hv
    simp only
    rw [base64_rest]
    constructor
    · rintro (⟨⟨-, h⟩, h'⟩ | ⟨n, h, -⟩ | ⟨-, j, d, t, h1, h2, n, h⟩)
      · exact .inl ⟨h, h'⟩
      · exact absurd h (hn n)
      · exact .inr ⟨j, d, n, t, h1, h2, h⟩
    · rintro (⟨h, h'⟩ | ⟨j, d, n, t, h1, h2, h⟩)
      · exact .inl ⟨⟨hn, h⟩, h'⟩
      · exact .inr (.inr ⟨hn, j, d, t, h1, h2, n, h⟩)
  | some n =>
    have hn := (b64Val_iff c n).1 hv
    simp only
    constructor
    · rintro (⟨⟨h, -⟩, -⟩ | ⟨m, h, h'⟩ | ⟨h, -⟩)
      · exact absurd hn (h n)
      · rw [val_unique hn h]; exact h'
      · exact absurd hn (h n)
    · intro h; exact .inr (.inl ⟨n, hn, h⟩)

theorem rest1_cons (l : Nat) (c : Char) (s : Str) (b : Bytes) : Rest1 l (c :: s) b ↔ match b64Val c with
    | none => Rest1 l s b
    | some n => ∃ b', b = UInt8.ofNat (l * 4 + n / 16) :: b' ∧ Rest2 (n % 16) 0 s b' := by
  have e : ∀ s, Rest1 l s b ↔ ∃ j d t, NoDigits j ∧ s = j ++ d :: t ∧ ∃ n b', Base64Value d n ∧ b = UInt8.ofNat (l * 4 + n / 16) :: b' ∧ Rest2 (n % 16) 0 t b' :=
    fun s => ⟨fun ⟨j, d, n, t, b', h1, h2, h⟩ => ⟨j, d, t, h1, h2, n, b', h⟩, fun ⟨j, d, t, h1, h2, n, b', h⟩ => ⟨j, d, n, t, b', h1, h2, h⟩⟩
  rw [e, split_cons (P := fun _ d t => ∃ n b', Base64Value d n ∧ b = UInt8.ofNat (l * 4 + n / 16) :: b' ∧ Rest2 (n % 16) 0 t b')]
  cases hv : b64Val c with
  | none =>
    have hn := (b64Val_none c).1 hv
    simp only
    rw [e]
    constructor
    · rintro (⟨n, b', h, -⟩ | ⟨-, h⟩)
      · exact absurd h (hn n)
      · exact h
    · intro h; exact .inr ⟨hn, h⟩
  | some n =>
    have hn := (b64Val_iff c n).1 hv
    simp only
    constructor
    · rintro (⟨m, b', h, h'⟩ | ⟨h, -⟩)
      · rw [val_unique hn h]; exact ⟨b', h'⟩
      · exact absurd hn (h n)
    · rintro ⟨b', h⟩; exact .inl ⟨n, b', hn, h⟩

theorem count_cons_pad (j : Str) : ('=' :: j).count '=' = j.count '=' + 1 := by simp
theorem count_cons_other {c : Char} (h : c ≠ '=') (j : Str) : (c :: j).count '=' = j.count '=' := by
  rw [List.count_cons]; simp [h]

theorem rest2_cons (l p : Nat) (c : Char) (s : Str) (b : Bytes) : Rest2 l p (c :: s) b ↔
    if c = '=' then (if p = 0 then Rest2 l 1 s b else p = 1 ∧ b = []) else match b64Val c with
    | none => Rest2 l p s b
    | some n => p ≤ 1 ∧ ∃ b', b = UInt8.ofNat (l * 16 + n / 4) :: b' ∧ Rest3 (n % 4) s b' := by
  have e : ∀ p s, Rest2 l p s b ↔ ∃ j d t, NoDigits j ∧ s = j ++ d :: t ∧
      ((j.count '=' + p ≤ 1 ∧ ∃ n b', Base64Value d n ∧ b = UInt8.ofNat (l * 16 + n / 4) :: b' ∧ Rest3 (n % 4) t b') ∨ (j.count '=' + p = 1 ∧ d = '=' ∧ b = [])) := by
    intro p s
    constructor
    · rintro ⟨j, h1, ⟨h2, d, n, t, b', h3, h⟩ | ⟨h2, t, h3, h⟩⟩
      · exact ⟨j, d, t, h1, h3, .inl ⟨h2, n, b', h⟩⟩
      · exact ⟨j, '=', t, h1, h3, .inr ⟨h2, rfl, h⟩⟩
    · rintro ⟨j, d, t, h1, h3, ⟨h2, n, b', h⟩ | ⟨h2, rfl, h⟩⟩
      · exact ⟨j, h1, .inl ⟨h2, d, n, t, b', h3, h⟩⟩
      · exact ⟨j, h1, .inr ⟨h2, t, h3, h⟩⟩
  rw [e, split_cons (P := fun j d t => (j.count '=' + p ≤ 1 ∧ ∃ n b', Base64Value d n ∧ b = UInt8.ofNat (l * 16 + n / 4) :: b' ∧ Rest3 (n % 4) t b') ∨ (j.count '=' + p = 1 ∧ d = '=' ∧ b = []))]
  have hpad := (b64Val_none '=').1 pad_none
  by_cases hc : c = '='
  · subst hc
    rw [if_pos rfl]
    simp only [count_cons_pad]
    by_cases hp : p = 0
    · subst hp
      rw [if_pos rfl, e]
      constructor
      · rintro ((⟨-, n, b', h, -⟩ | ⟨h, -⟩) | ⟨-, j, d, t, h1, h2, h⟩)
        · exact absurd h (hpad n)
        · simp at h
        · exact ⟨j, d, t, h1, h2, by simpa using h⟩
      · rintro ⟨j, d, t, h1, h2, h⟩
        exact .inr ⟨hpad, j, d, t, h1, h2, by simpa using h⟩
    · rw [if_neg hp]
      constructor
      · rintro ((⟨-, n, b', h, -⟩ | ⟨h, -, h'⟩) | ⟨-, j, d, t, h1, h2, ⟨h, -⟩ | ⟨h, -⟩⟩)
        · exact absurd h (hpad n)
        · exact ⟨by simpa using h, h'⟩
        · omega
        · omega
      · rintro ⟨h, h'⟩; exact .inl (.inr ⟨by simpa using h, by simp, h'⟩)
  · rw [if_neg hc]
    simp only [count_cons_other hc]
    cases hv : b64Val c with
    | none =>
      have hn := (b64Val_none c).1 hv
      simp only
      rw [e]
      constructor
      · rintro ((⟨-, n, b', h, -⟩ | ⟨-, h, -⟩) | ⟨-, h⟩)
        · exact absurd h (hn n)
        · exact absurd h hc
        · exact h
      · intro h; exact .inr ⟨hn, h⟩
    | some n =>
      have hn := (b64Val_iff c n).1 hv
      simp only
      constructor
      · rintro ((⟨h0, m, b', h, h'⟩ | ⟨-, h, -⟩) | ⟨h, -⟩)
        · rw [val_unique hn h]; exact ⟨by simpa using h0, b', h'⟩
        · exact absurd h hc
        · exact absurd hn (h n)
      · rintro ⟨h0, b', h⟩; exact .inl (.inl ⟨by simpa using h0, n, b', hn, h⟩)

theorem rest3_cons (l : Nat) (c : Char) (s : Str) (b : Bytes) : Rest3 l (c :: s) b ↔
    if c = '=' then b = [] else match b64Val c with
    | none => Rest3 l s b
    | some n => ∃ b', b = UInt8.ofNat (l * 64 + n) :: b' ∧ Base64Text s b' := by
  have e : ∀ s, Rest3 l s b ↔ ∃ j d t, NoDigits j ∧ s = j ++ d :: t ∧ '=' ∉ j ∧
      ((∃ n b', Base64Value d n ∧ b = UInt8.ofNat (l * 64 + n) :: b' ∧ Base64Text t b') ∨ (d = '=' ∧ b = [])) := by
    intro s
    constructor
    · rintro ⟨j, h1, h2, ⟨d, n, t, b', h3, h⟩ | ⟨t, h3, h⟩⟩
      · exact ⟨j, d, t, h1, h3, h2, .inl ⟨n, b', h⟩⟩
      · exact ⟨j, '=', t, h1, h3, h2, .inr ⟨rfl, h⟩⟩
    · rintro ⟨j, d, t, h1, h3, h2, ⟨n, b', h⟩ | ⟨rfl, h⟩⟩
      · exact ⟨j, h1, h2, .inl ⟨d, n, t, b', h3, h⟩⟩
      · exact ⟨j, h1, h2, .inr ⟨t, h3, h⟩⟩
  rw [e, split_cons (P := fun j d t => '=' ∉ j ∧ ((∃ n b', Base64Value d n ∧ b = UInt8.ofNat (l * 64 + n) :: b' ∧ Base64Text t b') ∨ (d = '=' ∧ b = [])))]
  have hpad := (b64Val_none '=').1 pad_none
  by_cases hc : c = '='
  · subst hc
    rw [if_pos rfl]
    constructor
    · rintro (⟨-, ⟨n, b', h, -⟩ | ⟨-, h⟩⟩ | ⟨-, j, d, t, h1, h2, h3, -⟩)
      · exact absurd h (hpad n)
      · exact h
      · simp at h3
    · intro h; exact .inl ⟨by simp, .inr ⟨rfl, h⟩⟩
  · rw [if_neg hc]
    cases hv : b64Val c with
    | none =>
      have hn := (b64Val_none c).1 hv
      simp only
      rw [e]
      constructor
      · rintro (⟨-, ⟨n, b', h, -⟩ | ⟨h, -⟩⟩ | ⟨-, j, d, t, h1, h2, h3, h⟩)
        · exact absurd h (hn n)
        · exact absurd h hc
        · exact ⟨j, d, t, h1, h2, fun x => h3 (List.mem_cons_of_mem _ x), h⟩
      · rintro ⟨j, d, t, h1, h2, h3, h⟩
        exact .inr ⟨hn, j, d, t, h1, h2, by simpa [Ne.symm hc] using h3, h⟩
    | some n =>
      have hn := (b64Val_iff c n).1 hv
      simp only
      constructor
      · rintro (⟨-, ⟨m, b', h, h'⟩ | ⟨h, -⟩⟩ | ⟨h, -⟩)
        · rw [val_unique hn h]; exact ⟨b', h'⟩
        · exact absurd h hc
        · exact absurd hn (h n)
      · rintro ⟨b', h⟩; exact .inl ⟨by simp, .inl ⟨n, b', hn, h⟩⟩

theorem rest_nil (l p : Nat) (b : Bytes) : (Base64Text [] b ↔ b = []) ∧ ¬ Rest1 l [] b ∧ ¬ Rest2 l p [] b ∧ ¬ Rest3 l [] b := by
  refine ⟨?_, ?_, ?_, ?_⟩
  · rw [base64_rest]
    constructor
    · rintro (⟨-, h⟩ | ⟨j, c, n, t, -, h, -⟩)
      · exact h
      · simp at h
    · rintro rfl; exact .inl ⟨noDigits_nil, rfl⟩
  · rintro ⟨j, c, n, t, b', -, h, -⟩; simp at h
  · rintro ⟨j, -, ⟨-, c, n, t, b', h, -⟩ | ⟨-, t, h, -⟩⟩ <;> simp at h
  · rintro ⟨j, -, -, ⟨c, n, t, b', h, -⟩ | ⟨t, h, -⟩⟩ <;> simp at h

theorem b64Loop_iff (s : Str) : (∀ l p b, b64Loop s 0 l p = some b ↔ Base64Text s b) ∧ (∀ l p b, b64Loop s 1 l p = some b ↔ Rest1 l s b) ∧
    (∀ l p b, p ≤ 1 → (b64Loop s 2 l p = some b ↔ Rest2 l p s b)) ∧ ∀ l b, b64Loop s 3 l 0 = some b ↔ Rest3 l s b := by
  induction s with
  | nil =>
    refine ⟨fun l p b => ?_, fun l p b => ?_, fun l p b _ => ?_, fun l b => ?_⟩
    · rw [(rest_nil l p b).1]; simp [b64Loop, eq_comm]
    · simp [b64Loop, (rest_nil l p b).2.1]
    · simp [b64Loop, (rest_nil l p b).2.2.1]
    · simp [b64Loop, (rest_nil l 0 b).2.2.2]
  | cons c s ih =>
    obtain ⟨i0, i1, i2, i3⟩ := ih
    refine ⟨fun l p b => ?_, fun l p b => ?_, fun l p b hp => ?_, fun l b => ?_⟩
    · rw [rest0_cons, b64Loop]
      by_cases hc : c = '='
      · subst hc; rw [if_pos rfl, if_neg (by omega), pad_none]; exact i0 l p b
      · rw [if_neg hc]
        cases b64Val c with
        | none => exact i0 l p b
        | some n => exact i1 n 0 b
    · rw [rest1_cons, b64Loop]
      by_cases hc : c = '='
      · subst hc; rw [if_pos rfl, if_neg (by omega), pad_none]; exact i1 l p b
      · rw [if_neg hc]
        cases b64Val c with
        | none => exact i1 l p b
        | some n =>
          simp only [map_cons_iff, i2 _ 0 _ (Nat.zero_le 1)]
          exact ⟨fun ⟨b', h, h'⟩ => ⟨b', h', h⟩, fun ⟨b', h, h'⟩ => ⟨b', h', h⟩⟩
    · rw [rest2_cons, b64Loop]
      by_cases hc : c = '='
      · subst hc; rw [if_pos rfl, if_pos (by omega), if_pos rfl]
        by_cases h : p = 0
        · subst h; rw [if_neg (by omega), if_pos rfl]; exact i2 l 1 b (by omega)
        · rw [if_pos (by omega), if_neg h]
          have : p = 1 := by omega
          simp [this, eq_comm]
      · rw [if_neg hc, if_neg hc]
        cases b64Val c with
        | none => exact i2 l p b hp
        | some n =>
          simp only [map_cons_iff, i3]
          exact ⟨fun ⟨b', h, h'⟩ => ⟨hp, b', h', h⟩, fun ⟨_, b', h, h'⟩ => ⟨b', h', h⟩⟩
    · rw [rest3_cons, b64Loop]
      by_cases hc : c = '='
      · subst hc; rw [if_pos rfl, if_pos (by omega), if_pos (by omega), if_pos rfl]; simp [eq_comm]
      · rw [if_neg hc, if_neg hc]
        cases b64Val c with
        | none => exact i3 l b
        | some n =>
          simp only [map_cons_iff, i0]
          exact ⟨fun ⟨b', h, h'⟩ => ⟨b', h', h⟩, fun ⟨b', h, h'⟩ => ⟨b', h', h⟩⟩

/-- **C127** (data). A text is read as data in base64 exactly when it is an ASCII text of these bytes. -/
theorem C127_base64 (s : Str) (b : Bytes) : fromB64 s = some b ↔ IsAscii s ∧ Base64Text s b := by
  unfold fromB64 IsAscii
  rw [← (b64Loop_iff s).1 0 0 b]
  split
  · rename_i h; simp at h; exact ⟨fun e => ⟨h, e⟩, fun e => e.2⟩
  · rename_i h; simp at h
    constructor
    · intro e; cases e
    · rintro ⟨e, -⟩
      obtain ⟨c, hc, hn⟩ := h
      have := e c hc
      omega
/-- Three bytes and one; blanks do not count; what follows the padding does not either. A group that is not completed is refused. -/
example : Base64Text "AQID BA==".toList [1, 2, 3, 4] ∧ Base64Text "AQ==AQ==".toList [1] ∧ ∀ b, ¬ Base64Text "AQI".toList b :=
  ⟨((C127_base64 _ _).1 (by decide)).2, ((C127_base64 _ _).1 (by decide)).2, fun b h => by
    have := (C127_base64 _ b).2 ⟨by unfold IsAscii; decide, h⟩
    cases this⟩

end TF.Props
