import Verif.Model.Float
/-!
# Locks given as `timedelta` or `datetime` objects (types/ConditionTypes.py:139-142)
-/
namespace TF

/-- `timedelta.total_seconds()` (CPython 3.11, Modules/_datetimemodule.c `delta_total_seconds`), of a number of microseconds: a true division. -/
def totalSeconds (us : Int) : ℚ :=
  let q : ℚ := us / 10 ^ 6
  if q < 0 then -fl (-q) else fl q

/-- `int` of a float. -/
def truncInt (q : ℚ) : Int := if q < 0 then -⌊-q⌋ else ⌊q⌋

/-- `local` of Modules/_datetimemodule.c: the local clock at a timestamp. -/
def Zone.local (z : Zone) (u : Int) : Int := u + z.shift u

/-- `local_to_seconds` of Modules/_datetimemodule.c: the timestamp of a local time `t` (counted as in `civilSeconds`); `fold` says which one if the
clock shows it twice. The end of the range of years is not modelled. -/
def localToSeconds (z : Zone) (t : Int) (fold : Bool) : Int :=
  let a := z.local t - t
  let u1 := t - a
  let t1 := z.local u1
  let other := if fold then u1 + 86400 else u1 - 86400
  if t1 = t ∧ a = z.local other - other then u1
  else
    let b := if t1 = t then z.local other - other else t1 - u1
    let u2 := t - b
    if z.local u2 = t then u2
    else if t1 = t then u1
    else if fold then min u1 u2 else max u1 u2

/-- A `datetime` object: the day and the time of the day, the microseconds, `utcoffset()` in microseconds if it is aware, and `fold`. -/
structure Moment where
  civil : Civil
  micro : Nat
  offset : Option Int
  fold : Bool

/-- `datetime.timestamp()` (CPython 3.11, Modules/_datetimemodule.c `datetime_timestamp`): the local time zone for an object that is not aware. -/
def Moment.timestamp (z : Zone) (m : Moment) : ℚ :=
  match m.offset with
  | some o => totalSeconds (civilSeconds m.civil * 10 ^ 6 + m.micro - o)
  | none =>
    let x : ℚ := localToSeconds z (civilSeconds m.civil) m.fold + fl (m.micro / 10 ^ 6)
    if x < 0 then -fl (-x) else fl x

/-- The locks of types/ConditionTypes.py:139-142. -/
inductive TimeArg
  | delta (us : Int)
  | moment (m : Moment)

/-- types/ConditionTypes.py:117-121, 139-142: `OutputLock(value, current_timestamp)` on a `timedelta` or a `datetime`. -/
def lockOfTime (z : Zone) (now : Int) : TimeArg → LockVal
  | .delta us => .computed (now + truncInt (totalSeconds us))
  | .moment m => .computed (truncInt (m.timestamp z))

end TF
