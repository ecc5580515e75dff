import Verif.Model.Text
/-!
# `decimal.Decimal` arithmetic in the default context (28 digits, ROUND_HALF_EVEN)

Model of the General Decimal Arithmetic operations used by `Currency`. Exponent limits (Emax = 999999) and NaN/Infinity
operands are not modelled (a `Currency` never holds the latter, see `Currency.set`).
-/

namespace TF

/-- `getcontext().prec`. -/
def decPrec : Nat := 28

/-- Integer division by `10^k` rounded half to even. -/
def divPow10HalfEven (c k : Nat) : Nat :=
  let q := c / 10^k
  let r := c % 10^k
  if 2 * r > 10^k ∨ (2 * r = 10^k ∧ q % 2 = 1) then q + 1 else q

/-- Rounding of an exact result to the context precision (`Decimal._fix`). -/
def decFix (d : Dec) : Dec :=
  let n := (natStr d.coef).length
  if n ≤ decPrec then d
  else
    let k := n - decPrec
    let q := divPow10HalfEven d.coef k
    if (natStr q).length ≤ decPrec then ⟨d.neg, q, d.exp + k⟩
    else ⟨d.neg, q / 10, d.exp + k + 1⟩

/-- Coefficient of `d` at the (smaller or equal) exponent `e`, with sign. -/
def Dec.at (d : Dec) (e : Int) : Int :=
  let c : Int := (d.coef * 10 ^ (d.exp - e).toNat : Nat)
  if d.neg then -c else c

/-- `a + b`. -/
def Dec.add (a b : Dec) : Dec :=
  let e := min a.exp b.exp
  let s := a.at e + b.at e
  decFix ⟨if s = 0 then a.neg && b.neg else decide (s < 0), s.natAbs, e⟩

/-- `-b` as used inside `a - b` (no rounding). -/
def Dec.negate (b : Dec) : Dec := ⟨!b.neg, b.coef, b.exp⟩

/-- `a - b`. -/
def Dec.sub (a b : Dec) : Dec := a.add b.negate

/-- `a * b`. -/
def Dec.mul (a b : Dec) : Dec := decFix ⟨a.neg != b.neg, a.coef * b.coef, a.exp + b.exp⟩

/-- Numeric comparison `a < b`. -/
def Dec.lt (a b : Dec) : Bool :=
  let e := min a.exp b.exp
  decide (a.at e < b.at e)

/-- Numeric comparison `a == b`. -/
def Dec.eqv (a b : Dec) : Bool :=
  let e := min a.exp b.exp
  decide (a.at e = b.at e)

/-- `Decimal(i)` for an int (exact). -/
def Dec.ofInt (i : Int) : Dec := ⟨decide (i < 0), i.natAbs, 0⟩

/-- The integer `round_half_even(|d| * 10^9)`. -/
def Dec.scaled9 (d : Dec) : Nat :=
  if 0 ≤ d.exp + 9 then d.coef * 10 ^ (d.exp + 9).toNat else divPow10HalfEven d.coef (-(d.exp + 9)).toNat

/-- `"{:.9f}".format(d)`. -/
def fmt9 (d : Dec) : Str :=
  let ds := natStr (d.scaled9)
  let padded := List.replicate (10 - ds.length) '0' ++ ds
  (if d.neg then ['-'] else []) ++ padded.take (padded.length - 9) ++ '.' :: padded.drop (padded.length - 9)

end TF
