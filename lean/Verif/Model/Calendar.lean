import Verif.Model.Duration
/-!
# The calendar: `time.strptime`, `time.mktime`, `time.localtime` and `time.strftime` of CPython 3.11 as internal/jsutils.py uses them

The regular expressions are those of `Lib/_strptime.py`, in the C locale. The time zone is a parameter.
-/
namespace TF

/-! ## `time.strptime` -/

/-- `\d` in a `str` pattern: a decimal digit of any script. -/
def anyDigit (c : Char) : Bool := isDig (asciiDigit c)

/-- `[a-b]` for characters with these codes. -/
def inRange (a b : Char) (c : Char) : Bool := decide (a.toNat ≤ c.toNat ∧ c.toNat ≤ b.toNat)

/-- The alternatives of the expression of a directive, in the order in which they are tried, each a list of character classes
(`TimeRE.__init__` in `_strptime.py`, used by `time.strptime` in internal/jsutils.py:589). `%p` is `am|pm` without regard to case. -/
def dirAlts : Char → List (List (Char → Bool))
  | 'Y' => [[anyDigit, anyDigit, anyDigit, anyDigit]]
  | 'y' => [[anyDigit, anyDigit]]
  | 'm' => [[inRange '1' '1', inRange '0' '2'], [inRange '0' '0', inRange '1' '9'], [inRange '1' '9']]
  | 'd' => [[inRange '3' '3', inRange '0' '1'], [inRange '1' '2', anyDigit], [inRange '0' '0', inRange '1' '9'], [inRange '1' '9'],
      [inRange ' ' ' ', inRange '1' '9']]
  | 'H' => [[inRange '2' '2', inRange '0' '3'], [inRange '0' '1', anyDigit], [anyDigit]]
  | 'I' => [[inRange '1' '1', inRange '0' '2'], [inRange '0' '0', inRange '1' '9'], [inRange '1' '9']]
  | 'M' => [[inRange '0' '5', anyDigit], [anyDigit]]
  | 'S' => [[inRange '6' '6', inRange '0' '1'], [inRange '0' '5', anyDigit], [anyDigit]]
  | 'p' => [[fun c => c == 'a' || c == 'A', fun c => c == 'm' || c == 'M'], [fun c => c == 'p' || c == 'P', fun c => c == 'm' || c == 'M']]
  | _ => []

/-- A piece of a format: a directive, a character that stands for itself, or `\s+` for white space (`TimeRE.pattern`). -/
inductive FmtItem
  | dir (d : Char)
  | lit (c : Char)
  | space

/-- `TimeRE.pattern` in `_strptime.py`, for the formats of internal/jsutils.py:528-563: a percent sign begins a directive and white space stands for any
white space (in these formats there is one space at a time). -/
def fmtItems : Str → List FmtItem
  | [] => []
  | '%' :: d :: s => .dir d :: fmtItems s
  | c :: s => (if isPySpace c then .space else .lit c) :: fmtItems s

/-- One alternative at the start of a text: what is taken and what is left. -/
def altMatch : List (Char → Bool) → Str → Option (Str × Str)
  | [], s => some ([], s)
  | _ :: _, [] => none
  | p :: ps, c :: s => if p c then (altMatch ps s).map fun x => (c :: x.1, x.2) else none

/-- What is left behind `\s+`, longest match first. -/
def spaceRests : Str → List Str
  | [] => []
  | c :: s => if isPySpace c then spaceRests s ++ [s] else []

/-- The ways to match one piece, in the order in which they are tried: the value of the directive and what is left. -/
def itemMatches : FmtItem → Str → List (List (Char × Str) × Str)
  | .dir d, s => ((dirAlts d).filterMap fun a => altMatch a s).map fun x => ([(d, x.1)], x.2)
  | .lit c, s => match s with
    | [] => []
    | x :: s => if x = c then [([], s)] else []
  | .space, s => (spaceRests s).map fun r => ([], r)

/-- The ways to match a format at the start of a text, in the order in which they are tried. -/
def fmtMatches : List FmtItem → Str → List (List (Char × Str) × Str)
  | [], s => [([], s)]
  | i :: is, s => (itemMatches i s).flatMap fun x => (fmtMatches is x.2).map fun y => (x.1 ++ y.1, y.2)

/-- A moment of the calendar, as in `time.struct_time`. -/
structure Civil where
  year : Nat
  month : Nat
  day : Nat
  hour : Nat
  minute : Nat
  second : Nat
  deriving DecidableEq, Repr

/-- `int(found_dict[d])` in `_strptime.py`. -/
def dirVal (vs : List (Char × Str)) (d : Char) : Option Nat := (vs.lookup d).map fun s => digVal (s.map asciiDigit)

/-- `%y` in `_strptime.py`: 69 to 99 are years of the 20th century. -/
def centuryOf (y : Nat) : Nat := if y ≤ 68 then y + 2000 else y + 1900

/-- `%I` with `%p` in `_strptime.py`. -/
def halfHour (h : Nat) (p : Str) : Nat :=
  if p.map Char.toLower = "am".toList then (if h = 12 then 0 else h)
  else if p.map Char.toLower = "pm".toList then (if h = 12 then 12 else h + 12)
  else h

/-- The values of the directives (`_strptime.py`): the year, the month and the day default to 1900/1/1, the clock to midnight. -/
def civilOf (vs : List (Char × Str)) : Civil where
  year := match dirVal vs 'Y' with
    | some y => y
    | none => ((dirVal vs 'y').map centuryOf).getD 1900
  month := (dirVal vs 'm').getD 1
  day := (dirVal vs 'd').getD 1
  hour := match dirVal vs 'I' with
    | some h => halfHour h ((vs.lookup 'p').getD [])
    | none => (dirVal vs 'H').getD 0
  minute := (dirVal vs 'M').getD 0
  second := (dirVal vs 'S').getD 0

/-- `_is_leap` in `Lib/datetime.py`. -/
def isLeap (y : Nat) : Bool := y % 4 == 0 && (y % 100 != 0 || y % 400 == 0)

/-- `_days_in_month` in `Lib/datetime.py`. -/
def monthDays (y m : Nat) : Nat :=
  if m = 2 ∧ isLeap y then 29 else [0, 31, 28, 31, 30, 31, 30, 31, 31, 30, 31, 30, 31].getD m 0

/-- `time.strptime(text, format)` (internal/jsutils.py:589): the first match has to reach the end of the text, and the day has to exist
(`datetime.date(year, month, day)` raises for other days and for the year 0). -/
def strptime (s f : Str) : Res Civil :=
  match (fmtMatches (fmtItems f) s).head? with
  | some (vs, []) =>
    let c := civilOf vs
    if c.year ≠ 0 ∧ 1 ≤ c.month ∧ c.month ≤ 12 ∧ 1 ≤ c.day ∧ c.day ≤ monthDays c.year c.month then .ok c else .error .valueError
  | _ => .error .valueError

/-! ## `time.mktime` and `time.localtime` -/

/-- `_days_before_year` in `Lib/datetime.py`, for years from 1 on. -/
def daysBeforeYear (y : Nat) : Nat := (y - 1) * 365 + (y - 1) / 4 - (y - 1) / 100 + (y - 1) / 400

/-- `_days_before_month` in `Lib/datetime.py`. -/
def daysBeforeMonth (y m : Nat) : Nat :=
  [0, 0, 31, 59, 90, 120, 151, 181, 212, 243, 273, 304, 334].getD m 0 + if m > 2 ∧ isLeap y then 1 else 0

/-- The seconds from 1970/1/1 00:00:00 to a moment, without regard to time zones (`timegm`); 719162 days lie before. -/
def civilSeconds (c : Civil) : Int :=
  86400 * ((daysBeforeYear c.year + daysBeforeMonth c.year c.month + c.day : Nat) - 719163 : Int) + 3600 * c.hour + 60 * c.minute + c.second

/-- The local time zone: `shift e` is how many seconds the local clock is ahead of UTC at the timestamp `e` (`time.localtime`), and `stamp l` the
timestamp `time.mktime` gives for the local clock `l` (counted as in `civilSeconds`). -/
structure Zone where
  shift : Int → Int
  stamp : Int → Int

/-- The year of a day counted from 0001/01/01 (which is 0): the last one that begins no later. -/
def yearOfDay (n : Nat) : Nat := (List.range (n / 365 + 2)).reverse.find? (fun y => decide (1 ≤ y ∧ daysBeforeYear y ≤ n)) |>.getD 1

/-- The month of a year in which a day counted from its first of January (which is 0) falls. -/
def monthOfDay (y n : Nat) : Nat := [12, 11, 10, 9, 8, 7, 6, 5, 4, 3, 2, 1].find? (fun m => decide (daysBeforeMonth y m ≤ n)) |>.getD 1

/-- `time.gmtime` for timestamps in the years from 1 on. -/
def civilAt (l : Int) : Civil :=
  let day := (l / 86400 + 719162).toNat
  let s := (l % 86400).toNat
  let y := yearOfDay day
  let n := day - daysBeforeYear y
  let m := monthOfDay y n
  ⟨y, m, n - daysBeforeMonth y m + 1, s / 3600, s % 3600 / 60, s % 60⟩

/-- Two digits, as `%m`, `%d`, `%H`, `%M` and `%S` of `time.strftime` write them. -/
def twoDigits (n : Nat) : Str := if n < 10 then '0' :: natStr n else natStr n

/-- `time.strftime('%Y/%m/%d %H:%M:%S', …)` (internal/jsutils.py:169-194), for years of four digits. -/
def civilText (c : Civil) : Str :=
  natStr c.year ++ '/' :: (twoDigits c.month ++ '/' :: (twoDigits c.day ++ ' ' :: (twoDigits c.hour ++ ':' :: (twoDigits c.minute ++ ':' :: twoDigits c.second))))

/-- internal/jsutils.py:169-194, 386-387 `epoch2HRDateTime(epoch)`: the local time, for years of four digits. -/
def clockText (z : Zone) (e : Int) : Str := civilText (civilAt (e + z.shift e))

/-- types/ConditionTypes.py:149-152 `OutputLock.__str__`; types/ConditionTypes.py:161-166: values from 500 million on are timestamps. -/
def lockShown (z : Zone) (v : Int) : Str := if v ≥ 500 * 1000 * 1000 then clockText z v else intStr v

/-! ## `getEpochDeltaTime` -/

/-- internal/jsutils.py:97-104 `TIMES`. -/
def timeUnits : List (Char × Nat) :=
  [('s', 1), ('m', 60), ('h', 3600), ('d', 86400), ('w', 604800), ('M', 2628000), ('Y', 31536000)]

/-- What `int(float(text) * unit)` (internal/jsutils.py:271-272) makes of anything but a sign and few digits: floating point arithmetic is not
modelled. -/
abbrev FloatDelta := Str → Nat → Res Int

/-- internal/jsutils.py:271-272 for a text in front of the unit: a float holds whole numbers below 2^53 exactly. -/
def deltaValue (G : FloatDelta) (t : Str) (u : Nat) : Res Int :=
  match t with
  | c :: ds =>
    let v := (ds.map asciiDigit)
    if (c = '+' ∨ c = '-') ∧ v ≠ [] ∧ v.all isDig = true ∧ digVal v * u < 2 ^ 53 then
      .ok (if c = '-' then -(digVal v * u : Nat) else (digVal v * u : Nat))
    else G t u
  | [] => G t u

/-- internal/jsutils.py:257-288 `getEpochDeltaTime` at the time `clock`, for a text that is not empty. An unknown unit is a `RuntimeError`, which the
model does not tell from `Exception`. -/
def epochDelta (G : FloatDelta) (clock : Int) (s : Str) : Res Int :=
  if strip s = ['0'] then .ok clock
  else match (strip s).getLast? with
    | none => .error .indexError
    | some u => match timeUnits.lookup u with
      | none => .error .exception
      | some n => do return clock + (← deltaValue G (strip s).dropLast n)

/-- The calendar of internal/jsutils.py:569-590 in a time zone, at the time `clock`. -/
def calendarAt (G : FloatDelta) (z : Zone) (clock : Int) : Calendar where
  year := natStr (civilAt (clock + z.shift clock)).year
  read := fun s f => do return z.stamp (civilSeconds (← strptime s f))
  delta := epochDelta G clock

end TF
