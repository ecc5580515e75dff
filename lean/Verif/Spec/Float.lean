import Verif.Spec.Duration
import Mathlib.Data.Rat.Defs
/-! # Durations with decimal points: "1.5h" -/
namespace TF.Spec

/-- A number as written: digits, and possibly a point with digits behind it. -/
structure Quantity where
  whole : Str
  frac : Option Str

/-- There are digits on one side of the point at least. -/
def Quantity.Good (q : Quantity) : Prop :=
  (∀ c ∈ q.whole ++ q.frac.getD [], '0' ≤ c ∧ c ≤ '9') ∧ q.whole ++ q.frac.getD [] ≠ []

def Quantity.text (q : Quantity) : Str :=
  match q.frac with
  | none => q.whole
  | some f => q.whole ++ '.' :: f

/-- The number it stands for. -/
def Quantity.value (q : Quantity) : ℚ := digits q.whole + (digits (q.frac.getD []) : ℚ) / 10 ^ (q.frac.getD []).length

/-- A duration as written: the numbers in front of `d`, `h`, `m` and `s`, for the units that are mentioned. -/
structure PointWritten where
  days : Option Quantity
  hours : Option Quantity
  minutes : Option Quantity
  seconds : Option Quantity

def PointWritten.Good (w : PointWritten) : Prop := ∀ o ∈ [w.days, w.hours, w.minutes, w.seconds], ∀ q ∈ o, q.Good

def PointWritten.text (w : PointWritten) : Str :=
  unitText 'd' (w.days.map Quantity.text) ++ (unitText 'h' (w.hours.map Quantity.text) ++
    (unitText 'm' (w.minutes.map Quantity.text) ++ unitText 's' (w.seconds.map Quantity.text)))

def amountOf : Option Quantity → ℚ
  | none => 0
  | some q => q.value

/-- The number of seconds it stands for. -/
def PointWritten.total (w : PointWritten) : ℚ :=
  86400 * amountOf w.days + 3600 * amountOf w.hours + 60 * amountOf w.minutes + amountOf w.seconds

end TF.Spec
