import Verif.Model.Calendar
import Verif.Spec.Duration
/-! # The calendar

Days are counted by adding up the lengths of the years and months before them. -/
namespace TF.Spec

/-- A leap year of the Gregorian calendar. -/
def LeapYear (y : Nat) : Prop := 4 ∣ y ∧ (¬ 100 ∣ y ∨ 400 ∣ y)

instance (y : Nat) : Decidable (LeapYear y) := by unfold LeapYear; infer_instance

def yearLength (y : Nat) : Nat := if LeapYear y then 366 else 365

def monthLength (y : Nat) : Nat → Nat
  | 1 => 31
  | 2 => if LeapYear y then 29 else 28
  | 3 => 31
  | 4 => 30
  | 5 => 31
  | 6 => 30
  | 7 => 31
  | 8 => 31
  | 9 => 30
  | 10 => 31
  | 11 => 30
  | 12 => 31
  | _ => 0

/-- The days of the years before `y`, from the year 1 on. -/
def yearsBefore (y : Nat) : Nat := ((List.range y).map fun k => if k = 0 then 0 else yearLength k).sum

/-- The days of the months of the year `y` before `m`. -/
def monthsBefore (y m : Nat) : Nat := ((List.range m).map (monthLength y)).sum

/-- The number of days before a day, from 0001/01/01 on. -/
def dayNumber (y m d : Nat) : Nat := yearsBefore y + monthsBefore y m + (d - 1)

/-- A day that exists. -/
def RealDay (y m d : Nat) : Prop := 1 ≤ y ∧ 1 ≤ m ∧ m ≤ 12 ∧ 1 ≤ d ∧ d ≤ monthLength y m

instance (y m d : Nat) : Decidable (RealDay y m d) := by unfold RealDay; infer_instance

/-- The seconds from the beginning of 1970 to a moment, by a clock that is not set forward or back. -/
def sinceEpoch (c : Civil) : Int :=
  86400 * ((dayNumber c.year c.month c.day : Int) - dayNumber 1970 1 1) + 3600 * c.hour + 60 * c.minute + c.second

/-- A moment that exists; a minute may have two more seconds. -/
def RealMoment (c : Civil) : Prop := RealDay c.year c.month c.day ∧ c.hour < 24 ∧ c.minute < 60 ∧ c.second < 62

instance (c : Civil) : Decidable (RealMoment c) := by unfold RealMoment; infer_instance

/-- The local clock shows the moment `c` at the timestamp `e`. -/
def ClockAt (z : Zone) (e : Int) (c : Civil) : Prop := RealMoment c ∧ c.second < 60 ∧ sinceEpoch c = e + z.shift e

/-- What `time.mktime` promises: the timestamp it gives for what the local clock shows is one at which the clock shows it. -/
def LawfulZone (z : Zone) : Prop := ∀ e, z.stamp (e + z.shift e) + z.shift (z.stamp (e + z.shift e)) = e + z.shift e

/-- A clock that is always the same number of seconds ahead of UTC. -/
def fixedZone (s : Int) : Zone := ⟨fun _ => s, fun l => l - s⟩

/-- The day a text means: a year of two digits lies between 1969 and 2068; a year of one digit means nothing. -/
def DayText.Is (thisYear : Nat) : DayText → Civil → Prop
  | .ymd y m d, c | .dmy d m y, c => c.year = digits y ∧ c.month = digits m ∧ c.day = digits d
  | .shortYear y m d, c => y.length = 2 ∧ 1969 ≤ c.year ∧ c.year ≤ 2068 ∧ c.year % 100 = digits y ∧ c.month = digits m ∧ c.day = digits d
  | .thisYear m d, c => c.year = thisYear ∧ c.month = digits m ∧ c.day = digits d

/-- The hour of the day that an hour of half a day is: 12am is 0, 12pm is 12. -/
def HourOf (h : Nat) (half : Str) (hour : Nat) : Prop :=
  1 ≤ h ∧ h ≤ 12 ∧ hour % 12 = h % 12 ∧ hour < 24 ∧ (12 ≤ hour ↔ half.map Char.toLower = ['p', 'm'])

/-- The time of the day a text means; every number has one digit or two. -/
def ClockText.Is : ClockText → Civil → Prop
  | .midnight, c => c.hour = 0 ∧ c.minute = 0 ∧ c.second = 0
  | .hm h m, c => h.length ≤ 2 ∧ m.length ≤ 2 ∧ c.hour = digits h ∧ c.minute = digits m ∧ c.second = 0
  | .hms h m s, c => h.length ≤ 2 ∧ m.length ≤ 2 ∧ s.length ≤ 2 ∧ c.hour = digits h ∧ c.minute = digits m ∧ c.second = digits s
  | .halfHm h x m, c => h.length ≤ 2 ∧ m.length ≤ 2 ∧ HourOf (digits h) x c.hour ∧ c.minute = digits m ∧ c.second = 0
  | .halfHms h x m s, c =>
    h.length ≤ 2 ∧ m.length ≤ 2 ∧ s.length ≤ 2 ∧ HourOf (digits h) x c.hour ∧ c.minute = digits m ∧ c.second = digits s

/-- The day after a day. -/
def NextDay (a b : Nat × Nat × Nat) : Prop :=
  (b.1 = a.1 ∧ b.2.1 = a.2.1 ∧ b.2.2 = a.2.2 + 1) ∨
  (a.2.2 = monthLength a.1 a.2.1 ∧ b.1 = a.1 ∧ b.2.1 = a.2.1 + 1 ∧ b.2.2 = 1) ∨
  (a.2.2 = 31 ∧ a.2.1 = 12 ∧ b.1 = a.1 + 1 ∧ b.2.1 = 1 ∧ b.2.2 = 1)

/-- The documented units of a time ago, in seconds. -/
def AgoUnit (u : Char) (n : Nat) : Prop :=
  (u = 's' ∧ n = 1) ∨ (u = 'm' ∧ n = 60) ∨ (u = 'h' ∧ n = 60 * 60) ∨ (u = 'd' ∧ n = 24 * 60 * 60) ∨ (u = 'w' ∧ n = 7 * 24 * 60 * 60) ∨
  (u = 'M' ∧ 12 * n = 365 * 24 * 60 * 60) ∨ (u = 'Y' ∧ n = 365 * 24 * 60 * 60)

end TF.Spec
