import Verif.Model.Duration
/-! # How a duration is written

A text is read from days down to seconds, each unit at most once: the documented form "2d8h5m20s". -/
namespace TF.Spec

/-- A number of units: decimal digits, at least one. -/
def Digits (s : Str) : Prop := s ≠ [] ∧ ∀ c ∈ s, '0' ≤ c ∧ c ≤ '9'

/-- The number the digits denote, most significant digit first. -/
def digits (s : Str) : Nat := s.foldl (fun n c => 10 * n + (c.toNat - '0'.toNat)) 0

/-- A duration as written: the digits in front of `d`, `h`, `m` and `s`, for the units that are mentioned. -/
structure Written where
  days : Option Str
  hours : Option Str
  minutes : Option Str
  seconds : Option Str

/-- Every unit that is mentioned has a number. -/
def Written.Good (w : Written) : Prop := ∀ o ∈ [w.days, w.hours, w.minutes, w.seconds], ∀ ds ∈ o, Digits ds

def unitText (u : Char) : Option Str → Str
  | none => []
  | some ds => ds ++ [u]

/-- The text. -/
def Written.text (w : Written) : Str := unitText 'd' w.days ++ (unitText 'h' w.hours ++ (unitText 'm' w.minutes ++ unitText 's' w.seconds))

def unitCount : Option Str → Nat
  | none => 0
  | some ds => digits ds

/-- The number of seconds. -/
def Written.total (w : Written) : Nat :=
  86400 * unitCount w.days + 3600 * unitCount w.hours + 60 * unitCount w.minutes + unitCount w.seconds

/-! ## How a date is written -/

/-- A day as written: year (4 digits), month, day; day, month, year (4 digits); year (1 or 2 digits), month, day; month, day of the current year. -/
inductive DayText
  | ymd (y m d : Str)
  | dmy (d m y : Str)
  | shortYear (y m d : Str)
  | thisYear (m d : Str)

/-- One or two digits. -/
def OneOrTwo (s : Str) : Prop := Digits s ∧ s.length ≤ 2

def FourDigits (s : Str) : Prop := Digits s ∧ s.length = 4

def DayText.Good : DayText → Prop
  | .ymd y m d => FourDigits y ∧ OneOrTwo m ∧ OneOrTwo d
  | .dmy d m y => OneOrTwo d ∧ OneOrTwo m ∧ FourDigits y
  | .shortYear y m d => OneOrTwo y ∧ OneOrTwo m ∧ OneOrTwo d
  | .thisYear m d => OneOrTwo m ∧ OneOrTwo d

/-- The text the user gives. -/
def DayText.text : DayText → Str
  | .ymd y m d => y ++ '/' :: (m ++ '/' :: d)
  | .dmy d m y => d ++ '/' :: (m ++ '/' :: y)
  | .shortYear y m d => y ++ '/' :: (m ++ '/' :: d)
  | .thisYear m d => m ++ '/' :: d

/-- The day with its year, and how it is to be read (`strptime` directives). -/
def DayText.meaning (year : Str) : DayText → Str × Str
  | .ymd y m d => (y ++ '/' :: (m ++ '/' :: d), "%Y/%m/%d".toList)
  | .dmy d m y => (d ++ '/' :: (m ++ '/' :: y), "%d/%m/%Y".toList)
  | .shortYear y m d => (y ++ '/' :: (m ++ '/' :: d), "%y/%m/%d".toList)
  | .thisYear m d => (year ++ '/' :: (m ++ '/' :: d), "%Y/%m/%d".toList)

/-- The time of the day as written, if it is: hours and minutes, or hours, minutes and seconds; with `am` or `pm` behind the hours
(as in "10am:50") the hours are those of half a day. -/
inductive ClockText
  | midnight
  | hm (h m : Str)
  | hms (h m s : Str)
  | halfHm (h half m : Str)
  | halfHms (h half m s : Str)

/-- `am` or `pm`, in small or capital letters. -/
def HalfDay (s : Str) : Prop := s ∈ ["am", "aM", "Am", "AM", "pm", "pM", "Pm", "PM"].map String.toList

def ClockText.Good : ClockText → Prop
  | .midnight => True
  | .hm h m => Digits h ∧ Digits m
  | .hms h m s => Digits h ∧ Digits m ∧ Digits s
  | .halfHm h x m => Digits h ∧ HalfDay x ∧ Digits m
  | .halfHms h x m s => Digits h ∧ HalfDay x ∧ Digits m ∧ Digits s

/-- The text the user gives behind the day. -/
def ClockText.text : ClockText → Str
  | .midnight => []
  | .hm h m => ' ' :: (h ++ ':' :: m)
  | .hms h m s => ' ' :: (h ++ ':' :: (m ++ ':' :: s))
  | .halfHm h x m => ' ' :: (h ++ (x ++ ':' :: m))
  | .halfHms h x m s => ' ' :: (h ++ (x ++ ':' :: (m ++ ':' :: s)))

def ClockText.meaning : ClockText → Str × Str
  | .midnight => ("00:00:00".toList, "%H:%M:%S".toList)
  | .hm h m => (h ++ ':' :: m, "%H:%M".toList)
  | .hms h m s => (h ++ ':' :: (m ++ ':' :: s), "%H:%M:%S".toList)
  | .halfHm h x m => (h ++ (x ++ ':' :: m), "%I%p:%M".toList)
  | .halfHms h x m s => (h ++ (x ++ ':' :: (m ++ ':' :: s)), "%I%p:%M:%S".toList)

end TF.Spec
