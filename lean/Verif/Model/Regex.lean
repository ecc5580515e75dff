import Verif.Model.Py
/-!
# Regular expressions (the part of Python's `re` used by types/ThreeBot.py)

`Re` is the syntax, `Re.test` an executable matcher (Brzozowski derivatives). The language an expression denotes is specified
separately in `Verif.Spec.Regex` and proved equal.
-/
namespace TF

/-- Regular expressions over characters. -/
inductive Re
  | empty                      -- matches nothing
  | eps                        -- the empty text
  | cls (p : Char → Bool)      -- one character of a class
  | seq (a b : Re)
  | alt (a b : Re)
  | star (a : Re)

/-- `a{n}`. -/
def Re.times (a : Re) : Nat → Re
  | 0 => .eps
  | n+1 => .seq a (a.times n)

/-- Up to `n` times. -/
def Re.upTo (a : Re) : Nat → Re
  | 0 => .eps
  | n+1 => .alt .eps (.seq a (a.upTo n))

/-- `a{lo,hi}`. -/
def Re.rep (a : Re) (lo hi : Nat) : Re := .seq (a.times lo) (a.upTo (hi - lo))

/-- Does the expression match the empty text? -/
def Re.nullable : Re → Bool
  | .empty => false
  | .eps => true
  | .cls _ => false
  | .seq a b => a.nullable && b.nullable
  | .alt a b => a.nullable || b.nullable
  | .star _ => true

/-- What is left to match after the character `c`. -/
def Re.deriv (c : Char) : Re → Re
  | .empty => .empty
  | .eps => .empty
  | .cls p => if p c then .eps else .empty
  | .seq a b => if a.nullable then .alt (.seq (a.deriv c) b) (b.deriv c) else .seq (a.deriv c) b
  | .alt a b => .alt (a.deriv c) (b.deriv c)
  | .star a => .seq (a.deriv c) (.star a)

/-- Full match. -/
def Re.test (r : Re) : Str → Bool
  | [] => r.nullable
  | c :: s => (r.deriv c).test s

/-- `re.compile('^…$').match(s) is not None` without flags: `$` also matches before a newline at the very end. -/
def Re.matchDollar (r : Re) (s : Str) : Bool :=
  r.test s || (s.getLast? == some '\n' && r.test s.dropLast)

/-- `[A-Za-z]`. -/
def isAlpha (c : Char) : Bool := ('A' ≤ c && c ≤ 'Z') || ('a' ≤ c && c ≤ 'z')
/-- `[0-9]`. -/
def isNum (c : Char) : Bool := '0' ≤ c && c ≤ '9'
/-- `[A-Za-z0-9]`. -/
def isAlnum (c : Char) : Bool := isAlpha c || isNum c

end TF
