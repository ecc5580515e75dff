import Verif.Model.Primitive
/-! # What an amount of money is

`units` reads a stored decimal as a number of smallest units (1 TFT = 10^9 units). -/
namespace TF.Spec

/-- A decimal that is a non-negative whole number of smallest units *by its form* (no sign, at most nine decimals). -/
def IsAmount (d : Dec) : Prop := d.neg = false ∧ -9 ≤ d.exp

/-- The number of smallest units (10^-9 TFT) denoted by `coef * 10^exp` with `exp ≥ -9`. -/
def units (d : Dec) : Nat := d.coef * 10 ^ (d.exp + 9).toNat

/-- The amount held by a `Currency`. -/
def amount (c : Currency) : Nat := units c.value

/-- A `Currency` object in a legal state. -/
def GoodCurrency (c : Currency) : Prop := IsAmount c.value

/-- `n` is the whole number `s` rounded to 28 significant decimal digits, to the nearest, a tie going to the even digit: `s`
itself below 10^28; above, with `k` digits to give up (`s` has exactly `28 + k` digits), a multiple `q` of `10^k` no farther than
half of `10^k` from `s`, `q` even when it is exactly half. -/
def Nearest28 (s n : Nat) : Prop :=
  (s < 10 ^ 28 → n = s) ∧
  (10 ^ 28 ≤ s → ∃ k q, 10 ^ 27 * 10 ^ k ≤ s ∧ s < 10 ^ 28 * 10 ^ k ∧ n = q * 10 ^ k ∧
    2 * n ≤ 2 * s + 10 ^ k ∧ 2 * s ≤ 2 * n + 10 ^ k ∧ ((2 * n = 2 * s + 10 ^ k ∨ 2 * s = 2 * n + 10 ^ k) → q % 2 = 0))

end TF.Spec
