import Verif.Model.Calendar
import Mathlib.Data.Int.Log
import Mathlib.Data.Rat.Floor
/-!
# `float`, `timedelta` and `total_seconds`, as far as internal/jsutils.py:271-272 and 465-467 use them

Floats are the rational numbers they stand for. The range of their exponents is not modelled: what is too large for a `float` is too large for a
`timedelta` as well (`OverflowError`), and what is too small to be one is far less than half a microsecond.
-/
namespace TF

/-- The nearest whole number, the even one of two. -/
def roundEven (q : ℚ) : Int :=
  let i := ⌊q⌋
  if q - i < 1 / 2 then i else if 1 / 2 < q - i then i + 1 else if i % 2 = 0 then i else i + 1

/-- The nearest float of a number that is not negative: 53 binary digits, ties to even. -/
def fl (q : ℚ) : ℚ := if q = 0 then 0 else roundEven (q / 2 ^ (Int.log 2 q - 52)) * 2 ^ (Int.log 2 q - 52)

/-- `float(param)` (internal/jsutils.py:466) for a text of digits and points: one point at most, one digit at least. -/
def floatText (s : Str) : Res ℚ :=
  let a := s.takeWhile (· != '.')
  match s.dropWhile (· != '.') with
  | [] => if a = [] then .error .valueError else .ok (fl (digVal a))
  | _ :: b => if b.contains '.' ∨ (a = [] ∧ b = []) then .error .valueError else .ok (fl ((digVal (a ++ b) : ℚ) / 10 ^ b.length))

/-- `accum` of `timedelta` (CPython 3.11, Modules/_datetimemodule.c): a number of units of `factor` microseconds is added to the sum; of what is left
behind the point, the whole microseconds as well, and the rest is kept as a float. -/
def accumUs (acc : Int × ℚ) (p : Nat × ℚ) : Int × ℚ :=
  let factor : Int := p.1 * 10 ^ 6
  let i := ⌊p.2⌋
  let f := p.2 - i
  let sum := acc.1 + i * factor
  if f = 0 then (sum, acc.2)
  else
    let prod := fl (f * factor)
    let j := ⌊prod⌋
    (sum + j, fl (acc.2 + (prod - j)))

/-- `timedelta(days, hours, minutes, seconds)` in microseconds: the units are added from the smallest to the largest, the rest is rounded to even. -/
def timedeltaUs (qs : List (Nat × ℚ)) : Int :=
  let acc := qs.reverse.foldl accumUs (0, 0)
  roundEven (acc.1 + acc.2)

/-- internal/jsutils.py:465-467: `int(timedelta(**time_params).total_seconds())`; a `timedelta` has less than 10^9 days. -/
def pySeconds : FloatSeconds := fun parts => do
  let qs ← parts.mapM fun p => do return (p.1, ← floatText p.2)
  let us := timedeltaUs qs
  if us < 86400 * 10 ^ 9 * 10 ^ 6 then return ⌊fl (us / 10 ^ 6)⌋ else throw .overflowError

/-! ## Any text -/

/-- A float. -/
inductive PyFloat
  | fin (q : ℚ)
  | inf
  | nan

/-- The nearest float, from 2^1024 on infinity. -/
def flSigned (q : ℚ) : PyFloat :=
  let p := if q < 0 then -fl (-q) else fl q
  if 2 ^ 1024 ≤ |p| then .inf else .fin p

/-- `_` in a number: between digits only. -/
def underscored (prev : Char) : Str → Option Str
  | [] => if prev = '_' then none else some []
  | '_' :: s => if isDig prev then underscored '_' s else none
  | c :: s => if prev = '_' ∧ ¬ isDig c then none else (underscored c s).map (c :: ·)

/-- The exponent: `e`, possibly a sign, and digits. -/
def floatExp : Str → Option Int
  | [] => some 0
  | e :: s =>
    if e = 'e' ∨ e = 'E' then
      match s with
      | '-' :: d => if d ≠ [] ∧ d.all isDig then some (-(digVal d : Int)) else none
      | '+' :: d => if d ≠ [] ∧ d.all isDig then some (digVal d) else none
      | d => if d ≠ [] ∧ d.all isDig then some (digVal d) else none
    else none

/-- A number without its sign: digits, possibly with a point, possibly with an exponent. -/
def floatNumber (s : Str) : Option ℚ :=
  let a := s.takeWhile isDig
  let r := s.dropWhile isDig
  let (b, r) := match r with
    | '.' :: r => (r.takeWhile isDig, r.dropWhile isDig)
    | r => ([], r)
  if a = [] ∧ b = [] then none
  else (floatExp r).map fun e => (digVal (a ++ b) : ℚ) / 10 ^ b.length * 10 ^ e

/-- `float(text)`: outer white space is dropped, digits of other scripts are what they are. -/
def floatStr (t : Str) : Res PyFloat :=
  match underscored '\x00' ((strip t).map asciiDigit) with
  | none => .error .valueError
  | some s =>
    let (neg, u) := match s with
      | '-' :: u => (true, u)
      | '+' :: u => (false, u)
      | u => (false, u)
    let word := u.map Char.toLower
    if word = "inf".toList ∨ word = "infinity".toList then .ok .inf
    else if word = "nan".toList then .ok .nan
    else match floatNumber u with
      | none => .error .valueError
      | some q => .ok (flSigned (if neg then -q else q))

/-- internal/jsutils.py:271-272: `int(float(text) * unit)`. -/
def pyDelta : FloatDelta := fun t u => do
  match ← floatStr t with
  | .nan => throw .valueError
  | .inf => throw .overflowError
  | .fin q => match flSigned (q * u) with
    | .fin p => return if p < 0 then -⌊-p⌋ else ⌊p⌋
    | _ => throw .overflowError

end TF
