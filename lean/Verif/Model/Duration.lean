import Verif.Model.Conditions
/-!
# Durations and dates: internal/jsutils.py, and the text branch of `OutputLock` (types/ConditionTypes.py)
-/
namespace TF

/-- The argument of `Duration.clean` (internal/jsutils.py:442-472). -/
inductive DurArg
  | none
  | int (v : Int)
  | str (s : Str)
  | other

/-- What `float(param)` and `timedelta(**time_params).total_seconds()` (internal/jsutils.py:465-467) make of the matched groups (the unit in
seconds, the text) if one of the texts has a point: floating point arithmetic is not modelled. -/
abbrev FloatSeconds := List (Nat × Str) → Res Int

/-- `[\.\d]` in internal/jsutils.py:399. -/
def isNumCh (c : Char) : Bool := isDig c || c == '.'

/-- One optional group `((?P<name>[\.\d]+?)u)?` of the expression in internal/jsutils.py:399: the text of the group, if it takes part, and what is
left. Since the unit is none of the characters before it, there is nothing to backtrack over. -/
def durGroup (u : Char) (s : Str) : Option Str × Str :=
  match s.takeWhile isNumCh, s.dropWhile isNumCh with
  | [], _ => (none, s)
  | _, [] => (none, s)
  | ds, c :: rest => if c = u then (some ds, rest) else (none, s)

/-- internal/jsutils.py:398-399, 461: `self._RE.match(v)`. -/
def durParse : List (Char × Nat) → Str → Option (List (Nat × Str))
  | [], s => if s = [] then some [] else none
  | (u, n) :: us, s => match durGroup u s with
    | (some ds, rest) => (durParse us rest).map ((n, ds) :: ·)
    | (none, _) => durParse us s

/-- The units of a duration, in seconds. -/
def durUnits : List (Char × Nat) := [('d', 86400), ('h', 3600), ('m', 60), ('s', 1)]

/-- internal/jsutils.py:465-467: for whole numbers, which `float` and `timedelta` keep exactly; a `timedelta` has less than 10^9 days. -/
def durTotal (F : FloatSeconds) (parts : List (Nat × Str)) : Res Int :=
  if parts.any (fun p => p.2.contains '.') then F parts
  else
    let n := (parts.map fun p => p.1 * digVal p.2).sum
    if n < 86400 * 10 ^ 9 then .ok n else .error .overflowError

/-- internal/jsutils.py:442-472 `Duration.clean`. `str.isdigit`, `\d`, `int` and `float` take the decimal digits of other scripts for what they
are, so they are replaced first (`str.isdigit` is also true of digits such as '²', which `int` refuses as the expression does). -/
def durClean (F : FloatSeconds) : DurArg → Res Int
  | .none => .ok 0
  | .int v => .ok v
  | .other => .error .valueError
  | .str s =>
    if s = ['0'] ∨ s = [] then .ok 0
    else
      let v := (strip (s.filter fun c => c != '\'' && c != '"')).map asciiDigit
      if v ≠ [] ∧ v.all isDig then .ok (digVal v)
      else match durParse durUnits v with
        | none => .error .valueError
        | some parts => durTotal F parts

/-- internal/jsutils.py:435-437: one unit of the text. -/
def durPart (v : Int) (u : Char) : Str := if v > 0 then intStr v ++ [u] else []

/-- internal/jsutils.py:427-437 `Duration.toString`. -/
def durString (F : FloatSeconds) (a : DurArg) : Res Str := do
  let v ← durClean F a
  if v = 0 then return []
  let days := v / 86400
  let hours := (v - days * 86400) / 3600
  let minutes := (v - days * 86400 - hours * 3600) / 60
  let seconds := v - days * 86400 - hours * 3600 - minutes * 60
  return durPart days 'd' ++ durPart hours 'h' ++ durPart minutes 'm' ++ durPart seconds 's'

/-! ## Dates -/

/-- The clock and the calendar: the text of the current year (internal/jsutils.py:529), `int(time.mktime(time.strptime(text, format)))`
(internal/jsutils.py:589) and `jstime.getEpochDeltaTime` (internal/jsutils.py:274-288). -/
structure Calendar where
  year : Str
  read : Str → Str → Res Int
  delta : Str → Res Int

/-- `s.split(c)`. -/
def splitAll (c : Char) : Str → List Str
  | [] => [[]]
  | x :: s => if x = c then [] :: splitAll c s else
    match splitAll c s with
    | [] => [[x]]
    | p :: ps => (x :: p) :: ps

/-- `s.split(" ", 1)` with two parts; `none` if there is no space. -/
def splitFirst : Str → Option (Str × Str)
  | [] => none
  | x :: s => if x = ' ' then some ([], s) else (splitFirst s).map fun p => (x :: p.1, p.2)

/-- One or two characters, as in internal/jsutils.py:534-542. -/
def short (s : Str) : Bool := s.length == 2 || s.length == 1

/-- internal/jsutils.py:523-547 `date_process`: the text and its format. -/
def dateProcess (cal : Calendar) (dd : Str) : Res (Str × Str) :=
  if !dd.contains '/' then .error .valueError
  else match splitAll '/' dd with
    | [_, _] => .ok (cal.year ++ ['/'] ++ strip dd, "%Y/%m/%d".toList)
    | [a, b, c] =>
      let (s0, s1, s2) := (strip a, strip b, strip c)
      if s0.length = 4 ∧ short s1 ∧ short s2 then .ok (dd, "%Y/%m/%d".toList)
      else if s2.length = 4 ∧ short s1 ∧ short s0 then .ok (dd, "%d/%m/%Y".toList)
      else if short s2 ∧ short s1 ∧ short s0 then .ok (dd, "%y/%m/%d".toList)
      else .error .valueError
    | _ => .error .valueError

/-- `"am" in v.lower() or "pm" in v.lower()` (internal/jsutils.py:555, 560), for ASCII letters. -/
def hasHalf : Str → Bool
  | x :: y :: s => ((x == 'a' || x == 'A' || x == 'p' || x == 'P') && (y == 'm' || y == 'M')) || hasHalf (y :: s)
  | _ => false

/-- internal/jsutils.py:549-564 `time_process`. With more than two colons the format is unbound. -/
def timeProcess (v : Str) : Res (Str × Str) :=
  let v := strip v
  if !v.contains ':' then .ok ("00:00:00".toList, "%H:%M:%S".toList)
  else match splitAll ':' v with
    | [_, _] => .ok (v, if hasHalf v then "%I%p:%M".toList else "%H:%M".toList)
    | [_, _, _] => .ok (v, if hasHalf v then "%I%p:%M:%S".toList else "%H:%M:%S".toList)
    | _ => .error .nameError

/-- internal/jsutils.py:569-590 `DateTime.clean` on a str. -/
def dateClean (cal : Calendar) (s : Str) : Res Int :=
  let v := strip (s.filter fun c => c != '\'' && c != '"')
  if v = ['0'] ∨ v = [] then .ok 0
  else if v.contains '+' || v.contains '-' then cal.delta v
  else do
    let (dd, tt) ← if v.contains ':' then match splitFirst v with
        | none => throw .valueError
        | some p => pure p
      else pure (v, [])
    let (tt, tf) ← timeProcess tt
    let (dd, df) ← dateProcess cal dd
    cal.read (dd ++ [' '] ++ tt) (df ++ [' '] ++ tf)

/-! ## Locks given as text -/

/-- types/ConditionTypes.py:130-138: `OutputLock(value, current_timestamp)` on a str. -/
def lockText (F : FloatSeconds) (cal : Calendar) (now : Int) (s : Str) : Res Int :=
  match lstrip isPySpace s with
  | [] => .error .indexError
  | c :: rest => if c = '+' then do return now + (← durClean F (.str rest)) else dateClean cal (c :: rest)

/-- The lock argument a text stands for. -/
def lockOfText (F : FloatSeconds) (cal : Calendar) (now : Int) (s : Str) : Res LockVal := do return .computed (← lockText F cal now s)

end TF
