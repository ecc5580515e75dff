import Verif.Model.ThreeBot
/-! # Numbers as Python reads them, and IP addresses as numbers -/
namespace TF.Spec

/-- A hexadecimal digit. -/
def HexDigit (c : Char) : Prop := ('0' ≤ c ∧ c ≤ '9') ∨ ('a' ≤ c ∧ c ≤ 'f') ∨ ('A' ≤ c ∧ c ≤ 'F')

/-- Groups of digits with one underscore between them. -/
def grouped : List Str → Str
  | [] => []
  | [g] => g
  | g :: gs => g ++ '_' :: grouped gs

/-- Python's grammar for `int(text, 16)`, once the decimal digits of other scripts are replaced by the ASCII ones: blanks (other than the four
separators 28 to 31) around it, an optional sign, an optional prefix `0x` (which may be followed by an
underscore), then hexadecimal digits, in groups separated by single underscores. -/
def HexNumeral (s : Str) : Prop :=
  ∃ (before sign pre : Str) (groups : List Str) (after : Str),
    s.map asciiDigit = before ++ (sign ++ (pre ++ grouped groups)) ++ after ∧
    (∀ c ∈ before, isIntSpace c = true) ∧ (∀ c ∈ after, isIntSpace c = true) ∧
    (sign = [] ∨ sign = ['+'] ∨ sign = ['-']) ∧
    (pre = [] ∨ pre = ['0', 'x'] ∨ pre = ['0', 'X'] ∨ pre = ['0', 'x', '_'] ∨ pre = ['0', 'X', '_']) ∧
    groups ≠ [] ∧ (∀ g ∈ groups, g ≠ [] ∧ ∀ c ∈ g, HexDigit c)

/-- The number written in big-endian bytes. -/
def bigEndian : Bytes → Nat
  | [] => 0
  | b :: l => b.toNat * 256 ^ l.length + bigEndian l

/-- The number of an IPv4-mapped IPv6 address, `::ffff:a.b.c.d`. -/
def MappedV4 (i : Int) : Prop := i / 2 ^ 32 = 0xffff

end TF.Spec
