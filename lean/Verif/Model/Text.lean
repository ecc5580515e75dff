import Verif.Model.Py
/-!
# Python built-ins on text used by the modelled code

`bytes.hex`, `bytearray.fromhex`, `base64.b64encode/b64decode`, `int(str)`, `str(int)`, `str.strip`, `Decimal(str)`.
These are models of CPython's behaviour (trusted base); each was compared with CPython 3.11 on random texts.
-/

namespace TF

/-- Whitespace skipped by `bytearray.fromhex` (ASCII whitespace). -/
def isAsciiSpace (c : Char) : Bool :=
  c == ' ' || c == '\t' || c == '\n' || c == '\r' || c.toNat == 11 || c.toNat == 12

/-- `str.isspace` on one character (what `strip()` removes). -/
def isPySpace (c : Char) : Bool :=
  let n := c.toNat
  (9 ≤ n && n ≤ 13) || (28 ≤ n && n ≤ 32) || n == 0x85 || n == 0xa0 || n == 0x1680 ||
  (0x2000 ≤ n && n ≤ 0x200a) || n == 0x2028 || n == 0x2029 || n == 0x202f || n == 0x205f || n == 0x3000

/-- `s.lstrip(p)`. -/
def lstrip (p : Char → Bool) (s : Str) : Str := s.dropWhile p
/-- `s.rstrip(p)`. -/
def rstrip (p : Char → Bool) (s : Str) : Str := (s.reverse.dropWhile p).reverse
/-- `s.strip()`. -/
def strip (s : Str) : Str := rstrip isPySpace (lstrip isPySpace s)

/-- `s.upper()` (ASCII letters only; other letters are left alone). -/
def upper (s : Str) : Str := s.map Char.toUpper

/-- Value of one hexadecimal digit. -/
def hexVal (c : Char) : Option Nat :=
  let n := c.toNat
  if 48 ≤ n ∧ n ≤ 57 then some (n - 48)
  else if 97 ≤ n ∧ n ≤ 102 then some (n - 87)
  else if 65 ≤ n ∧ n ≤ 70 then some (n - 55)
  else none

/-- `bytes.hex()`. -/
def toHex (b : Bytes) : Str := b.flatMap fun x => [Nat.digitChar (x.toNat / 16), Nat.digitChar (x.toNat % 16)]

/-- `bytearray.fromhex(s)`: pairs of hex digits, ASCII whitespace allowed between pairs; `none` is `ValueError`. -/
def fromHex : Str → Option Bytes
  | [] => some []
  | [c] => if isAsciiSpace c then some [] else none
  | c :: d :: rest =>
    if isAsciiSpace c then fromHex (d :: rest)
    else do
      let hi ← hexVal c
      let lo ← hexVal d
      let t ← fromHex rest
      return UInt8.ofNat (hi * 16 + lo) :: t

/-- The base64 alphabet. -/
def b64Char (n : Nat) : Char :=
  if n < 26 then Char.ofNat (65 + n)
  else if n < 52 then Char.ofNat (97 + (n - 26))
  else if n < 62 then Char.ofNat (48 + (n - 52))
  else if n = 62 then '+' else '/'

/-- Inverse of the alphabet. -/
def b64Val (c : Char) : Option Nat :=
  let n := c.toNat
  if 65 ≤ n ∧ n ≤ 90 then some (n - 65)
  else if 97 ≤ n ∧ n ≤ 122 then some (n - 97 + 26)
  else if 48 ≤ n ∧ n ≤ 57 then some (n - 48 + 52)
  else if c = '+' then some 62
  else if c = '/' then some 63
  else none

/-- `base64.b64encode(b).decode()`. -/
def toB64 : Bytes → Str
  | [] => []
  | [a] => [b64Char (a.toNat / 4), b64Char (a.toNat % 4 * 16), '=', '=']
  | [a, b] => [b64Char (a.toNat / 4), b64Char (a.toNat % 4 * 16 + b.toNat / 16), b64Char (b.toNat % 16 * 4), '=']
  | a :: b :: c :: rest =>
    b64Char (a.toNat / 4) :: b64Char (a.toNat % 4 * 16 + b.toNat / 16) ::
    b64Char (b.toNat % 16 * 4 + c.toNat / 64) :: b64Char (c.toNat % 64) :: toB64 rest

/-- The loop of `binascii.a2b_base64` (non-strict): `quad` is the position in the group, `left` the bits carried over, `pads`
the number of consecutive pad characters. Characters outside the alphabet are skipped. `none` is `binascii.Error`, a
`ValueError`. -/
def b64Loop : Str → Nat → Nat → Nat → Option Bytes
  | [], quad, _, _ => if quad = 0 then some [] else none
  | c :: cs, quad, left, pads =>
    if c = '=' then
      if 2 ≤ quad then
        if quad + (pads + 1) ≥ 4 then some [] else b64Loop cs quad left (pads + 1)
      else b64Loop cs quad left pads
    else match b64Val c with
      | none => b64Loop cs quad left pads
      | some v =>
        match quad with
        | 0 => b64Loop cs 1 v 0
        | 1 => (UInt8.ofNat (left * 4 + v / 16) :: ·) <$> b64Loop cs 2 (v % 16) 0
        | 2 => (UInt8.ofNat (left * 16 + v / 4) :: ·) <$> b64Loop cs 3 (v % 4) 0
        | _ => (UInt8.ofNat (left * 64 + v) :: ·) <$> b64Loop cs 0 0 0

/-- `base64.b64decode(s)` on a `str` (which must be ASCII). -/
def fromB64 (s : Str) : Option Bytes :=
  if s.all (fun c => decide (c.toNat < 128)) then b64Loop s 0 0 0 else none

/-- An ASCII decimal digit. -/
def isDig (c : Char) : Bool := decide (48 ≤ c.toNat ∧ c.toNat ≤ 57)

/-- The zeros of the decimal digits of other scripts (Unicode 14, category Nd); the other nine follow each of them. -/
def digitZeros : List Nat := [
  0x660, 0x6f0, 0x7c0, 0x966, 0x9e6, 0xa66, 0xae6, 0xb66, 0xbe6, 0xc66, 0xce6, 0xd66, 0xde6, 0xe50, 0xed0, 0xf20, 0x1040, 0x1090, 0x17e0,
  0x1810, 0x1946, 0x19d0, 0x1a80, 0x1a90, 0x1b50, 0x1bb0, 0x1c40, 0x1c50, 0xa620, 0xa8d0, 0xa900, 0xa9d0, 0xa9f0, 0xaa50, 0xabf0, 0xff10,
  0x104a0, 0x10d30, 0x11066, 0x110f0, 0x11136, 0x111d0, 0x112f0, 0x11450, 0x114d0, 0x11650, 0x116c0, 0x11730, 0x118e0, 0x11950, 0x11c50,
  0x11d50, 0x11da0, 0x16a60, 0x16ac0, 0x16b50, 0x1d7ce, 0x1d7d8, 0x1d7e2, 0x1d7ec, 0x1d7f6, 0x1e140, 0x1e2f0, 0x1e950, 0x1fbf0]

/-- `int(...)` and `Decimal(...)` replace the decimal digits of other scripts by ASCII digits first. -/
def asciiDigit (c : Char) : Char :=
  if c.toNat < 128 then c
  else match digitZeros.find? (fun z => decide (z ≤ c.toNat ∧ c.toNat < z + 10)) with
    | some z => Char.ofNat (48 + (c.toNat - z))
    | none => c

/-- White space around the argument of `int(...)`: the four separators 28 to 31, which `str.strip` removes, are refused. -/
def isIntSpace (c : Char) : Bool := isPySpace c && !(28 ≤ c.toNat && c.toNat ≤ 31)

/-- The argument of `int(...)` without white space around it and in ASCII digits. -/
def intText (s : Str) : Str := rstrip isIntSpace (lstrip isIntSpace (s.map asciiDigit))

/-- `str(n)` for a non-negative int. -/
def natStr (n : Nat) : Str := Nat.toDigits 10 n

/-- `str(i)` for an int. -/
def intStr (i : Int) : Str := if i < 0 then '-' :: natStr i.natAbs else natStr i.natAbs

/-- The number denoted by a string of decimal digits. -/
def digVal (s : Str) : Nat := Nat.ofDigitChars 10 s 0

/-- Digits with single underscores between them, as accepted by `int(...)`; underscores dropped. -/
def usDigits : Bool → Str → Option Str
  | prev, [] => if prev then some [] else none
  | prev, c :: cs =>
    if isDig c then (c :: ·) <$> usDigits true cs
    else if c = '_' ∧ prev = true then usDigits false cs
    else none

/-- Split an optional sign off; `true` means minus. -/
def splitSign : Str → Bool × Str
  | '-' :: cs => (true, cs)
  | '+' :: cs => (false, cs)
  | cs => (false, cs)

/-- `int(s)` on a str, base 10; `none` is `ValueError`. (The 4300-digit limit of newer CPythons is not modelled.) -/
def pyInt (s : Str) : Option Int :=
  let (neg, ds) := splitSign (intText s)
  (usDigits false ds).map fun d => if neg then - (digVal d : Int) else (digVal d : Int)

/-- A finite `decimal.Decimal`: `(-1)^sign * coef * 10^exp`. -/
structure Dec where
  neg : Bool
  coef : Nat
  exp : Int
  deriving DecidableEq, Repr

/-- A `Decimal` value: finite, or NaN/Infinity (`as_tuple().exponent` is then a str). -/
inductive DecLit
  | fin (d : Dec)
  | special
  deriving DecidableEq, Repr

/-- `Decimal(s)` after sign removal: digits, optional fraction, optional exponent. `none` is `decimal.InvalidOperation`. -/
def parseUnsignedDec (neg : Bool) (s : Str) : Option Dec :=
  let ip := s.takeWhile isDig
  let r1 := s.dropWhile isDig
  let (fp, r2) := match r1 with
    | '.' :: t => (t.takeWhile isDig, t.dropWhile isDig)
    | _ => ([], r1)
  if ip ++ fp = [] then none
  else match r2 with
    | [] => some ⟨neg, digVal (ip ++ fp), - (fp.length : Int)⟩
    | e :: t =>
      if e = 'e' ∨ e = 'E' then
        let (eneg, ed) := splitSign t
        if ed ≠ [] ∧ ed.all isDig then
          some ⟨neg, digVal (ip ++ fp), (if eneg then - (digVal ed : Int) else (digVal ed : Int)) - fp.length⟩
        else none
      else none

/-- `Inf`, `Infinity`, `NaN<digits>`, `sNaN<digits>`, in any case. -/
def isSpecialDec (s : Str) : Bool :=
  let u := upper s
  u == "INF".toList || u == "INFINITY".toList ||
  (u.take 3 == "NAN".toList && (u.drop 3).all isDig) || (u.take 4 == "SNAN".toList && (u.drop 4).all isDig)

/-- `Decimal(s)` for a str: whitespace stripped, underscores removed, exact. (Exponents beyond 10^18, which are refused, are not modelled.) -/
def parseDec (s : Str) : Option DecLit :=
  let (neg, u) := splitSign ((strip (s.map asciiDigit)).filter (· ≠ '_'))
  if isSpecialDec u then some .special else (parseUnsignedDec neg u).map .fin

end TF
