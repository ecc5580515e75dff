import Verif.Model.Regex
/-! # The language a regular expression denotes, and what a 3Bot name is -/
namespace TF.Spec

/-- Texts that are a concatenation of texts of `L`. -/
inductive Star (L : Str → Prop) : Str → Prop
  | nil : Star L []
  | cons {u v : Str} : L u → Star L v → Star L (u ++ v)

/-- The language of a regular expression. -/
def Lang : Re → Str → Prop
  | .empty, _ => False
  | .eps, s => s = []
  | .cls p, s => ∃ c, s = [c] ∧ p c = true
  | .seq a b, s => ∃ u v, s = u ++ v ∧ Lang a u ∧ Lang b v
  | .alt a b, s => Lang a s ∨ Lang b s
  | .star a, s => Star (Lang a) s

/-- A letter of the alphabet, of either case. -/
def IsLetter (c : Char) : Prop := ('A' ≤ c ∧ c ≤ 'Z') ∨ ('a' ≤ c ∧ c ≤ 'z')
/-- A decimal digit. -/
def IsDigit (c : Char) : Prop := '0' ≤ c ∧ c ≤ '9'

/-- One group of a 3Bot name: at least five characters, letters, digits and dashes, starting with a letter and ending with a letter
or digit. -/
def NameGroup (g : Str) : Prop :=
  5 ≤ g.length ∧ (∃ c, g.head? = some c ∧ IsLetter c) ∧ (∃ c, g.getLast? = some c ∧ (IsLetter c ∨ IsDigit c)) ∧
  ∀ c ∈ g, IsLetter c ∨ IsDigit c ∨ c = '-'

/-- A 3Bot name: groups separated by dots, at most 63 characters in all. -/
def GoodName (s : Str) : Prop :=
  s.length ≤ 63 ∧ ∃ (g : Str) (gs : List Str), NameGroup g ∧ (∀ x ∈ gs, NameGroup x) ∧ s = g ++ gs.flatMap fun x => '.' :: x

end TF.Spec
