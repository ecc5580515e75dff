import Verif.Model.Text
/-! # Which texts are base64 and of which bytes -/
namespace TF.Spec

/-- The value of a base64 digit. -/
def Base64Value (c : Char) (n : Nat) : Prop :=
  ('A' ≤ c ∧ c ≤ 'Z' ∧ n = c.toNat - 'A'.toNat) ∨ ('a' ≤ c ∧ c ≤ 'z' ∧ n = 26 + (c.toNat - 'a'.toNat)) ∨
  ('0' ≤ c ∧ c ≤ '9' ∧ n = 52 + (c.toNat - '0'.toNat)) ∨ (c = '+' ∧ n = 62) ∨ (c = '/' ∧ n = 63)

/-- Characters without meaning: no digits. -/
def NoDigits (s : Str) : Prop := ∀ c ∈ s, ∀ n, ¬ Base64Value c n

/-- Bytes in base64: four digits for three bytes, at the end two or three digits and padding for one or two. Characters that are no
digits do not count, wherever they are; nor does a padding character before the second digit, or a single one between the second and
third; and nothing after the padding counts at all. -/
inductive Base64Text : Str → Bytes → Prop
  | done (s : Str) : NoDigits s → Base64Text s []
  | three (j0 j1 j2 j3 : Str) (c0 c1 c2 c3 : Char) (n0 n1 n2 n3 : Nat) (s : Str) (b : Bytes) :
      NoDigits j0 → Base64Value c0 n0 → NoDigits j1 → Base64Value c1 n1 → NoDigits j2 → j2.count '=' ≤ 1 → Base64Value c2 n2 →
      NoDigits j3 → '=' ∉ j3 → Base64Value c3 n3 → Base64Text s b →
      Base64Text (j0 ++ c0 :: (j1 ++ c1 :: (j2 ++ c2 :: (j3 ++ c3 :: s))))
        (UInt8.ofNat (n0 * 4 + n1 / 16) :: UInt8.ofNat (n1 % 16 * 16 + n2 / 4) :: UInt8.ofNat (n2 % 4 * 64 + n3) :: b)
  | two (j0 j1 j2 j3 : Str) (c0 c1 c2 : Char) (n0 n1 n2 : Nat) (s : Str) :
      NoDigits j0 → Base64Value c0 n0 → NoDigits j1 → Base64Value c1 n1 → NoDigits j2 → j2.count '=' ≤ 1 → Base64Value c2 n2 →
      NoDigits j3 → '=' ∉ j3 →
      Base64Text (j0 ++ c0 :: (j1 ++ c1 :: (j2 ++ c2 :: (j3 ++ '=' :: s)))) [UInt8.ofNat (n0 * 4 + n1 / 16), UInt8.ofNat (n1 % 16 * 16 + n2 / 4)]
  | one (j0 j1 j2 : Str) (c0 c1 : Char) (n0 n1 : Nat) (s : Str) :
      NoDigits j0 → Base64Value c0 n0 → NoDigits j1 → Base64Value c1 n1 → NoDigits j2 → j2.count '=' = 1 →
      Base64Text (j0 ++ c0 :: (j1 ++ c1 :: (j2 ++ '=' :: s))) [UInt8.ofNat (n0 * 4 + n1 / 16)]

end TF.Spec
