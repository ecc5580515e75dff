import Verif.Spec.Stakes
import Verif.Spec.Amount
/-! # Amounts of money as texts -/
namespace TF.Spec

/-- A text without its underscores and with the decimal digits of other scripts replaced by the ASCII ones. -/
def bareText (t : Str) : Str := (t.map asciiDigit).filter (· ≠ '_')

/-- Sign, digits with an optional decimal point, and an optional exponent: the number `± ds · 10^e`, where `ds` are all digits before and after
the point. -/
def DecimalText (t : Str) (negative : Bool) (ds : Str) (e : Int) : Prop :=
  ∃ sign whole point frac expo : Str,
    t = sign ++ (whole ++ point ++ expo) ∧
    ((sign = [] ∨ sign = ['+']) ∧ negative = false ∨ sign = ['-'] ∧ negative = true) ∧
    (point = [] ∧ frac = [] ∨ point = '.' :: frac) ∧
    ds = whole ++ frac ∧ ds ≠ [] ∧ (∀ c ∈ ds, DecDigit c) ∧
    (expo = [] ∧ e = - (frac.length : Int) ∨
      ∃ (E : Char) (esign eds : Str), expo = E :: (esign ++ eds) ∧ (E = 'e' ∨ E = 'E') ∧ eds ≠ [] ∧ (∀ c ∈ eds, DecDigit c) ∧
        ((esign = [] ∨ esign = ['+']) ∧ e = writtenBy eds - (frac.length : Int) ∨
          esign = ['-'] ∧ e = - (writtenBy eds : Int) - (frac.length : Int)))

/-- Infinity or "not a number", in any case. -/
def SpecialText (t : Str) : Prop :=
  ∃ sign name ds : Str, t = sign ++ (name ++ ds) ∧ (sign = [] ∨ sign = ['+'] ∨ sign = ['-']) ∧
    ((upper name = "INF".toList ∨ upper name = "INFINITY".toList) ∧ ds = [] ∨
      (upper name = "NAN".toList ∨ upper name = "SNAN".toList) ∧ ∀ c ∈ ds, DecDigit c)

/-- `num` is what remains of `s` without the blanks around it and without the unit `TFT`, in any case and with blanks before it. -/
def InUnit (s num : Str) : Prop :=
  ∃ before gap unit after : Str, s = before ++ (num ++ gap ++ unit) ++ after ∧
    (∀ c ∈ before ++ gap ++ after, isPySpace c = true) ∧ (unit = [] ∧ gap = [] ∨ upper unit = "TFT".toList)

/-- The text of a number of TFT: `± ds · 10^e`. -/
def AmountText (s : Str) (negative : Bool) (ds : Str) (e : Int) : Prop := ∃ num, InUnit s num ∧ DecimalText (bareText num) negative ds e

/-- The text of a special number. -/
def SpecialAmount (s : Str) : Prop := ∃ num, InUnit s num ∧ SpecialText (bareText num)

/-- `num` with blanks around it. -/
def InBlanks (s num : Str) : Prop :=
  ∃ before after : Str, s = before ++ num ++ after ∧ ∀ c ∈ before ++ after, isPySpace c = true

/-- The text of a number of smallest units, as JSON objects hold it: `± ds · 10^e`. -/
def UnitsText (s : Str) (negative : Bool) (ds : Str) (e : Int) : Prop := ∃ num, InBlanks s num ∧ DecimalText (bareText num) negative ds e

/-- Infinity or "not a number", as JSON objects may hold it. -/
def SpecialUnits (s : Str) : Prop := ∃ num, InBlanks s num ∧ SpecialText (bareText num)

end TF.Spec
