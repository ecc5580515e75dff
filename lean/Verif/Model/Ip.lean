import Verif.Model.ThreeBot
import Verif.Model.Duration
/-!
# Python's `ipaddress` module, as types/ThreeBot.py:155-169 uses it

The module is part of the interpreter, not of the repository: this is what CPython 3.11 does (Lib/ipaddress.py, cited by function; the
differential test `tools/fuzz.py` compares it with the interpreter). Versions before 3.9.5 also take leading zeros in an IPv4 address, versions
before 3.9 refuse scope ids.
-/
namespace TF

/-- `IPv4Address._parse_octet`. -/
def parseOctet (s : Str) : Option Nat :=
  if s = [] then none
  else if ¬ s.all isDig then none
  else if s.length > 3 then none
  else if s ≠ ['0'] ∧ s.head? = some '0' then none
  else if digVal s > 255 then none
  else some (digVal s)

/-- `IPv4Address(text)`: `__init__` and `_ip_int_from_string`, as the four bytes it packs to. -/
def parseV4 (s : Str) : Option Bytes :=
  if s.contains '/' then none
  else if (splitAll '.' s).length ≠ 4 then none
  else ((splitAll '.' s).mapM parseOctet).map (·.map UInt8.ofNat)

/-- `'%x' % n`. -/
def hexStr (n : Nat) : Str := Nat.toDigits 16 n

/-- `int(text, 16)` of a text of hexadecimal digits. -/
def hexNat (s : Str) : Nat := s.foldl (fun n c => 16 * n + (hexVal c).getD 0) 0

/-- `IPv6Address._parse_hextet`. -/
def parseHextet (s : Str) : Option Nat :=
  if ¬ s.all (fun c => (hexVal c).isSome) then none
  else if s.length > 4 then none
  else if s = [] then none
  else some (hexNat s)

/-- `IPv6Address._ip_int_from_string`: the last part, if it is an IPv4 address, as two groups. -/
def expandV4 (parts : List Str) : Option (List Str) :=
  match parts.getLast? with
  | none => some parts
  | some l => if l.contains '.' then
      match parseV4 l with
      | some [a, b, c, d] => some (parts.dropLast ++ [hexStr (a.toNat * 256 + b.toNat), hexStr (c.toNat * 256 + d.toNat)])
      | _ => none
    else some parts

/-- The end of `IPv6Address._ip_int_from_string`: the parts before the double colon, the skipped groups, and the parts after it. -/
def fillGroups (hi : List Str) (skipped : Nat) (lo : List Str) : Option (List Nat) :=
  match hi.mapM parseHextet, lo.mapM parseHextet with
  | some a, some b => some (a ++ List.replicate skipped 0 ++ b)
  | _, _ => none

/-- `IPv6Address._ip_int_from_string` once the parts are known: the eight groups of 16 bits. -/
def groupsOf (parts : List Str) : Option (List Nat) :=
  if parts.length > 9 then none
  else
    let inner := parts.tail.dropLast
    let front := parts.head? = some []
    let back := parts.getLast? = some []
    if inner.count [] > 1 then none
    else if inner.count [] = 1 then
      let skip := inner.idxOf [] + 1
      let hi := if front then skip - 1 else skip
      let lo := if back then parts.length - skip - 2 else parts.length - skip - 1
      if front ∧ hi ≠ 0 then none
      else if back ∧ lo ≠ 0 then none
      else if hi + lo > 7 then none
      else fillGroups (parts.take hi) (8 - (hi + lo)) (parts.drop (parts.length - lo))
    else if parts.length ≠ 8 then none
    else if front ∨ back then none
    else parts.mapM parseHextet

/-- The 16 bytes of eight groups. -/
def packGroups (gs : List Nat) : Bytes := gs.flatMap fun g => [UInt8.ofNat (g / 256), UInt8.ofNat (g % 256)]

/-- `IPv6Address._split_scope_id`: the text without its scope id. -/
def dropScope (s : Str) : Option Str :=
  if s.contains '%' then
    let scope := (s.dropWhile (· != '%')).tail
    if scope = [] ∨ scope.contains '%' then none else some (s.takeWhile (· != '%'))
  else some s

/-- `IPv6Address(text)`: `__init__` and `_ip_int_from_string`, as the 16 bytes it packs to. -/
def parseV6 (s : Str) : Option Bytes :=
  if s.contains '/' then none
  else match dropScope s with
    | none => none
    | some t =>
      if (splitAll ':' t).length < 3 then none
      else match expandV4 (splitAll ':' t) with
        | none => none
        | some parts => (groupsOf parts).map packGroups

/-- The groups of 16 bits of a packed address. -/
def unpackGroups : Bytes → List Nat
  | a :: b :: r => (a.toNat * 256 + b.toNat) :: unpackGroups r
  | _ => []

/-- The state of the loop of `IPv6Address._compress_hextets`: the best run so far, the run at hand, and the index. -/
structure ZeroRun where
  bestStart : Nat
  bestLen : Nat
  start : Nat
  len : Nat
  index : Nat

/-- One step of that loop. The start of a run is only looked at if the run is not empty, so -1 needs no representation. -/
def ZeroRun.step (z : ZeroRun) (h : Str) : ZeroRun :=
  if h = ['0'] then
    let start := if z.len = 0 then z.index else z.start
    if z.len + 1 > z.bestLen then ⟨start, z.len + 1, start, z.len + 1, z.index + 1⟩
    else ⟨z.bestStart, z.bestLen, start, z.len + 1, z.index + 1⟩
  else ⟨z.bestStart, z.bestLen, 0, 0, z.index + 1⟩

/-- `IPv6Address._compress_hextets`. -/
def compressGroups (hs : List Str) : List Str :=
  let z := hs.foldl ZeroRun.step ⟨0, 0, 0, 0, 0⟩
  if z.bestLen > 1 then
    let stop := z.bestStart + z.bestLen
    (if z.bestStart = 0 then [[]] else []) ++ hs.take z.bestStart ++ [[]] ++ hs.drop stop ++ (if stop = hs.length then [[]] else [])
  else hs

/-- `str` of an IPv4 or IPv6 address without scope id (`_string_from_ip_int`), given as its packed bytes. -/
def printIp (b : Bytes) : Str :=
  if b.length = 4 then List.intercalate ['.'] (b.map fun x => natStr x.toNat)
  else List.intercalate [':'] (compressGroups ((unpackGroups b).map hexStr))

/-- `ipaddress.ip_address(text)`: `IPv4Address`, and if it refuses `IPv6Address`. -/
def parseIp (s : Str) : Option Bytes :=
  match parseV4 s with
  | some b => some b
  | none => parseV6 s

/-- The module. -/
def pyIp : IpLib := ⟨parseIp, printIp⟩

end TF
