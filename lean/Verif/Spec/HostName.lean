import Verif.Spec.Regex
import Verif.Spec.Ip
/-! # Which texts and numbers are network addresses -/
namespace TF.Spec

/-- The first part of a host name: a letter, two letters, a letter and a digit in either order, or three to 63 letters, digits, dashes
and underscores that begin and end with a letter or a digit. -/
def HostLabel (s : Str) : Prop :=
  (∃ a, s = [a] ∧ IsLetter a) ∨ (∃ a b, s = [a, b] ∧ (IsLetter a ∧ IsLetter b ∨ IsLetter a ∧ IsDigit b ∨ IsDigit a ∧ IsLetter b)) ∨
  (3 ≤ s.length ∧ s.length ≤ 63 ∧ (∃ c, s.head? = some c ∧ (IsLetter c ∨ IsDigit c)) ∧ (∃ c, s.getLast? = some c ∧ (IsLetter c ∨ IsDigit c)) ∧
    ∀ c ∈ s, IsLetter c ∨ IsDigit c ∨ c = '-' ∨ c = '_')

/-- The last part: `n` to `m` letters. -/
def TopLevel (n m : Nat) (s : Str) : Prop := n ≤ s.length ∧ s.length ≤ m ∧ ∀ c ∈ s, IsLetter c

/-- A host name: two parts, the second of two to six letters; or three parts, the second of two to 30 letters, digits and dashes and the
third of two or three letters. -/
def GoodHost (s : Str) : Prop :=
  ∃ label rest : Str, s = label ++ '.' :: rest ∧ HostLabel label ∧
    (TopLevel 2 6 rest ∨ ∃ mid top : Str, rest = mid ++ '.' :: top ∧ 2 ≤ mid.length ∧ mid.length ≤ 30 ∧ (∀ c ∈ mid, IsLetter c ∨ IsDigit c ∨ c = '-') ∧ TopLevel 2 3 top)

/-- The network address of an IP address, which has 4 or 16 bytes: an IPv4 address, also if it was given as the IPv6 address it is mapped to. -/
inductive IpIs : Bytes → NetAddr → Prop
  | v4 (b : Bytes) : b.length = 4 → IpIs b ⟨.ipv4, b⟩
  | mapped (b : Bytes) : IpIs (mappedV4 b) ⟨.ipv4, b⟩
  | v6 (b : Bytes) : b.length ≠ 4 → (∀ x, b ≠ mappedV4 x) → IpIs b ⟨.ipv6, b⟩

/-- The characters of an ASCII text as bytes. -/
def asciiBytes (s : Str) : Bytes := s.map fun c => UInt8.ofNat c.toNat

end TF.Spec
