import Verif.Spec.Numeral
/-! # Whole numbers as Python reads them -/
namespace TF.Spec

/-- A decimal digit. -/
def DecDigit (c : Char) : Prop := '0' ≤ c ∧ c ≤ '9'

/-- The number written by decimal digits, the first one counting most. -/
def writtenBy (ds : Str) : Nat := ds.foldl (fun n c => 10 * n + (c.toNat - '0'.toNat)) 0

/-- Python's grammar for `int(text)`, once the decimal digits of other scripts are replaced by the ASCII ones: blanks (other than the four
separators 28 to 31) around it, an optional sign, then decimal digits in groups separated by single underscores;
and the number it stands for. -/
def IntNumeral (s : Str) (i : Int) : Prop :=
  ∃ (before sign : Str) (groups : List Str) (after : Str),
    s.map asciiDigit = before ++ (sign ++ grouped groups) ++ after ∧
    (∀ c ∈ before, isIntSpace c = true) ∧ (∀ c ∈ after, isIntSpace c = true) ∧
    groups ≠ [] ∧ (∀ g ∈ groups, g ≠ [] ∧ ∀ c ∈ g, DecDigit c) ∧
    ((sign = [] ∨ sign = ['+']) ∧ i = writtenBy groups.flatten ∨ sign = ['-'] ∧ i = - (writtenBy groups.flatten : Int))

end TF.Spec
