import Verif.Model.Py
/-!
# Independent specification of the siabin / rivbin wire formats

Written from the published format description (linked in the docstrings of encoders/sia.py and encoders/rivine.py),
not from the encoder code: these are *decoders*.
-/

namespace TF.Spec

/-- The number a little-endian byte string denotes. -/
def leValue : Bytes → Nat
  | [] => 0
  | b :: bs => b.toNat + 256 * leValue bs

/-- The number a big-endian byte string denotes. -/
def beValue (bs : Bytes) : Nat := bs.foldl (fun acc b => acc * 256 + b.toNat) 0

/-- Split `n` bytes off a stream. -/
def splitBytes (n : Nat) (s : Bytes) : Option (Bytes × Bytes) :=
  if n ≤ s.length then some (s.take n, s.drop n) else none

/-- siabin slice: eight little-endian length bytes, then that many bytes. -/
def siaSliceDecode (s : Bytes) : Option (Bytes × Bytes) := do
  let (l, rest) ← splitBytes 8 s
  splitBytes (leValue l) rest

/-- rivbin length prefix: the low bits of the first byte (`0`, `01`, `011`, `111`) give the size of the prefix (1, 2, 3 or
4 bytes), the remaining bits, little-endian, the length. -/
def rivLenDecode : Bytes → Option (Nat × Bytes)
  | [] => none
  | b :: rest =>
    if b.toNat % 2 = 0 then some (b.toNat / 2, rest)
    else if b.toNat % 4 = 1 then do
      let (p, s) ← splitBytes 2 (b :: rest)
      return (leValue p / 4, s)
    else if b.toNat % 8 = 3 then do
      let (p, s) ← splitBytes 3 (b :: rest)
      return (leValue p / 8, s)
    else do
      let (p, s) ← splitBytes 4 (b :: rest)
      return (leValue p / 8, s)

/-- rivbin slice: a length prefix, then that many bytes. -/
def rivSliceDecode (s : Bytes) : Option (Bytes × Bytes) := do
  let (n, rest) ← rivLenDecode s
  splitBytes n rest

/-- An encoding is *self-delimiting* on the values satisfying `P`: whatever follows in the stream, the bytes determine both
the value and where the rest starts. -/
def SelfDelimiting {α : Type} (P : α → Prop) (enc : α → Res Bytes) : Prop :=
  ∀ a b x y r s, P a → P b → enc a = .ok x → enc b = .ok y → x ++ r = y ++ s → a = b ∧ r = s

/-- A text all of whose characters are ASCII. -/
def IsAscii (s : Str) : Prop := ∀ c ∈ s, c.toNat < 128

end TF.Spec
