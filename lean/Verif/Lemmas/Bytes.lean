import Verif.Model.Py
import Verif.Spec.Encoding
/-! Lemmas on byte strings and integer encodings. -/
namespace TF
open Spec

@[simp] theorem toBytesLE_length (n v : Nat) : (toBytesLE n v).length = n := by
  induction n generalizing v with
  | zero => rfl
  | succ n ih => simp [toBytesLE, ih]

@[simp] theorem toBytesBE_length (n v : Nat) : (toBytesBE n v).length = n := by simp [toBytesBE]

theorem leValue_toBytesLE (n v : Nat) : leValue (toBytesLE n v) = v % 256 ^ n := by
  induction n generalizing v with
  | zero => simp [toBytesLE, leValue, Nat.mod_one]
  | succ n ih =>
    simp only [toBytesLE, leValue, ih]
    rw [Nat.pow_succ, Nat.mul_comm (256 ^ n) 256, Nat.mod_mul]
    simp

theorem leValue_lt (bs : Bytes) : leValue bs < 256 ^ bs.length := by
  induction bs with
  | nil => simp [leValue]
  | cons b bs ih =>
    have := b.toNat_lt
    simp only [leValue, List.length_cons, Nat.pow_succ]
    omega

theorem toBytesLE_leValue (bs : Bytes) : toBytesLE bs.length (leValue bs) = bs := by
  induction bs with
  | nil => rfl
  | cons b bs ih =>
    have hb := b.toNat_lt
    have h1 : (b.toNat + 256 * leValue bs) % 256 = b.toNat := by omega
    have h2 : (b.toNat + 256 * leValue bs) / 256 = leValue bs := by omega
    simp [toBytesLE, leValue, h1, h2, ih]

theorem toBytesLE_inj {n v w : Nat} (hv : v < 256 ^ n) (hw : w < 256 ^ n) (h : toBytesLE n v = toBytesLE n w) : v = w := by
  have := congrArg leValue h
  rwa [leValue_toBytesLE, leValue_toBytesLE, Nat.mod_eq_of_lt hv, Nat.mod_eq_of_lt hw] at this

theorem beValue_append (xs ys : Bytes) : beValue (xs ++ ys) = beValue xs * 256 ^ ys.length + beValue ys := by
  unfold beValue
  rw [List.foldl_append]
  generalize List.foldl (fun acc b => acc * 256 + b.toNat) 0 xs = a
  induction ys generalizing a with
  | nil => simp
  | cons y ys ih =>
    simp only [List.foldl_cons, List.length_cons]
    rw [ih, ih (0 * 256 + y.toNat)]
    simp only [Nat.pow_succ, Nat.add_mul, Nat.zero_mul, Nat.zero_add, Nat.mul_assoc, Nat.mul_comm 256]
    omega

theorem beValue_reverse (bs : Bytes) : beValue bs.reverse = leValue bs := by
  induction bs with
  | nil => rfl
  | cons b bs ih =>
    rw [List.reverse_cons, beValue_append, ih]
    simp [leValue, beValue]
    omega

theorem beValue_toBytesBE (n v : Nat) : beValue (toBytesBE n v) = v % 256 ^ n := by
  rw [toBytesBE, beValue_reverse, leValue_toBytesLE]

theorem splitBytes_append (xs ys : Bytes) : splitBytes xs.length (xs ++ ys) = some (xs, ys) := by
  simp [splitBytes]

theorem splitBytes_append' {n : Nat} (xs ys : Bytes) (h : n = xs.length) : splitBytes n (xs ++ ys) = some (xs, ys) := by
  subst h; exact splitBytes_append xs ys

theorem utf8EncodeChar_length_pos (c : Char) : 1 ≤ (String.utf8EncodeChar c).length := by
  unfold String.utf8EncodeChar; simp only; split <;> (try split) <;> (try split) <;> simp

theorem utf8EncodeChar_length_eq_one (c : Char) : (String.utf8EncodeChar c).length = 1 ↔ c.toNat < 128 := by
  unfold String.utf8EncodeChar
  have : c.toNat = c.val.toNat := rfl
  simp only [this]; split
  · simp; omega
  · split
    · simp; omega
    · split <;> simp <;> omega

theorem utf8_length_ge (s : Str) : s.length ≤ (utf8 s).length := by
  induction s with
  | nil => simp [utf8]
  | cons c s ih =>
    have := utf8EncodeChar_length_pos c
    simp only [utf8, List.flatMap_cons, List.length_append, List.length_cons] at *
    omega

theorem utf8_length_eq_iff (s : Str) : (utf8 s).length = s.length ↔ IsAscii s := by
  induction s with
  | nil => simp [utf8, IsAscii]
  | cons c s ih =>
    have h1 := utf8EncodeChar_length_pos c
    have h2 := utf8_length_ge s
    have h3 := utf8EncodeChar_length_eq_one c
    simp only [IsAscii, List.mem_cons, forall_eq_or_imp] at *
    simp only [utf8, List.flatMap_cons, List.length_append, List.length_cons] at *
    rw [← h3, ← ih]
    omega

end TF
