import Verif.Model.Py
/-!
# encoders/sia.py and encoders/rivine.py

The encoder object is a growing `bytearray`. A method call appends some bytes and then either returns or raises; `Out` is
that pair (bytes appended, exception if any), so that the bytes left behind by a call that raises half-way are modelled too.
-/

namespace TF

/-- Effect of one encoder call: the bytes appended to `_data`, and the exception raised, if any. -/
structure Out where
  bytes : Bytes
  err : Option Err := none
  deriving DecidableEq, Repr

/-- Sequencing of two encoder calls: the second only runs if the first did not raise. -/
def Out.andThen (a : Out) (b : Out) : Out :=
  match a.err with
  | none => ⟨a.bytes ++ b.bytes, b.err⟩
  | some _ => a

/-- `try: ... except TypeError: raise ValueError(...)`; bytes already appended stay. -/
def Out.typeErrorAsValueError (a : Out) : Out :=
  if a.err = some .typeError then { a with err := some .valueError } else a

/-- A call that appended `b` and returned. -/
def Out.ok (b : Bytes) : Out := ⟨b, none⟩
/-- A call that raised before appending anything. -/
def Out.raise (e : Err) : Out := ⟨[], some e⟩

/-- `encode(*values)` on a fresh encoder: the data, or the exception (the encoder is then dropped).
encoders/__init__.py:15-24. -/
def Out.toRes (o : Out) : Res Bytes :=
  match o.err with
  | none => .ok o.bytes
  | some e => .error e

/-- The Python values the encoders are given. `obj` is an object with its own `sia_binary_encode` /
`rivine_binary_encode` method, represented by the effect of these calls. `none` stands for any value that is neither an
integer, text, bytes, iterable nor encodable object (e.g. `None`). Floats and user classes with `__int__` that are not
encodable objects are not modelled. -/
inductive Val where
  | none
  | bool (b : Bool)
  | int (i : Int)
  | str (s : Str)
  | bytes (b : Bytes)
  | seq (xs : List Val)
  | obj (sia riv : Out)

/-- encoders/sia.py:42-58 `SiaBinaryEncoder.add_int` on an int. -/
def siaInt (v : Int) : Out :=
  if v < 0 then .raise .integerOutOfRange
  else if v > 2^64 - 1 then .raise .integerOutOfRange
  else .ok (toBytesLE 8 v.toNat)

/-- encoders/sia.py:80-92 `add_slice` on bytes. -/
def siaSliceBytes (b : Bytes) : Out := (siaInt b.length).andThen (.ok b)

/-- encoders/sia.py:80-89 `add_slice` on a str: the prefix is `len(value)`, i.e. the number of code points. -/
def siaSliceStr (s : Str) : Out := (siaInt s.length).andThen (.ok (utf8 s))

mutual
/-- encoders/sia.py:128-158 `SiaBinaryEncoder.add`. (`isinstance(value, int or hasattr(..))` is `isinstance(value, int)`.) -/
def siaAdd : Val → Out
  | .obj o _ => o
  | .bool b => .ok [if b then 1 else 0]
  | .int i => siaInt i
  | .str s => (siaSliceStr s).typeErrorAsValueError
  | .bytes b => (siaSliceBytes b).typeErrorAsValueError
  | .seq xs => ((siaInt xs.length).andThen (siaAddSeq xs)).typeErrorAsValueError
  | .none => .raise .valueError
/-- encoders/sia.py:74-76 and 160-170: `add` each element in order (`add_all`, and `add_array` on an iterable). -/
def siaAddSeq : List Val → Out
  | [] => .ok []
  | v :: vs => (siaAdd v).andThen (siaAddSeq vs)
end

/-- encoders/sia.py:60-78 `add_array`. -/
def siaAddArray : Val → Out
  | .str s => .ok (utf8 s)
  | .bytes b => .ok b
  | .seq xs => siaAddSeq xs
  | _ => .raise .typeError

/-- encoders/sia.py:80-98 `add_slice`. -/
def siaAddSlice : Val → Out
  | .str s => siaSliceStr s
  | .bytes b => siaSliceBytes b
  | .seq xs => (siaInt xs.length).andThen (siaAddSeq xs)
  | _ => .raise .typeError

/-- encoders/sia.py:100-126 `add_byte`. `bool` is an `int`; objects with `__int__` are not modelled. -/
def siaAddByte : Val → Out
  | .int v => if v < 0 ∨ v > 255 then .raise .valueError else .ok (toBytesLE 1 v.toNat)
  | .bool b => .ok [if b then 1 else 0]
  | .str s => if (utf8 s).length ≠ 1 then .raise .valueError else .ok (utf8 s)
  | .bytes b => if b.length ≠ 1 then .raise .valueError else .ok b
  | _ => .raise .valueError

/-- encoders/__init__.py:21-24 `sia_encode(*values)`. -/
def siaEncode (vs : List Val) : Res Bytes := (siaAddSeq vs).toRes

/-- encoders/rivine.py:86-145: `add_int8/16/24/32/64` are `add_int (8*n)` for `n` = 1, 2, 3, 4, 8 with limit `2^(8n)-1`. -/
def rivInt (n : Nat) (v : Int) : Out :=
  if v < 0 then .raise .integerOutOfRange
  else if v > 2^(8*n) - 1 then .raise .integerOutOfRange
  else .ok (toBytesLE n v.toNat)

/-- encoders/rivine.py:97-145. -/
def rivInt8 (v : Int) : Out := rivInt 1 v
@[inherit_doc rivInt8] def rivInt16 (v : Int) : Out := rivInt 2 v
@[inherit_doc rivInt8] def rivInt24 (v : Int) : Out := rivInt 3 v
@[inherit_doc rivInt8] def rivInt32 (v : Int) : Out := rivInt 4 v
@[inherit_doc rivInt8] def rivInt64 (v : Int) : Out := rivInt 8 v

/-- encoders/rivine.py:185-199 `_add_slice_length`. Python's `|` binds weaker than `<<`. -/
def rivSliceLen (length : Nat) : Out :=
  if length < 2^7 then rivInt8 ((length <<< 1 : Nat) : Int)
  else if length < 2^14 then rivInt16 ((1 ||| (length <<< 2) : Nat) : Int)
  else if length < 2^21 then rivInt24 ((3 ||| (length <<< 3) : Nat) : Int)
  else if length < 2^29 then rivInt32 ((7 ||| (length <<< 3) : Nat) : Int)
  else .raise .sliceLengthOutOfRange

/-- encoders/rivine.py:165-177 `add_slice` on bytes. -/
def rivSliceBytes (b : Bytes) : Out := (rivSliceLen b.length).andThen (.ok b)
/-- encoders/rivine.py:165-174 `add_slice` on a str: the prefix counts code points. -/
def rivSliceStr (s : Str) : Out := (rivSliceLen s.length).andThen (.ok (utf8 s))

mutual
/-- encoders/rivine.py:46-84 `RivineBinaryEncoder.add`. -/
def rivAdd : Val → Out
  | .obj _ o => o
  | .bool b => .ok [if b then 1 else 0]
  | .int i => rivInt64 i
  | .str s => (rivSliceStr s).typeErrorAsValueError
  | .bytes b => (rivSliceBytes b).typeErrorAsValueError
  | .seq xs => ((rivSliceLen xs.length).andThen (rivAddSeq xs)).typeErrorAsValueError
  | .none => .raise .valueError
/-- encoders/rivine.py:160-161, 220-230: `add` each element in order. -/
def rivAddSeq : List Val → Out
  | [] => .ok []
  | v :: vs => (rivAdd v).andThen (rivAddSeq vs)
end

/-- encoders/rivine.py:147-163 `add_array`. -/
def rivAddArray : Val → Out
  | .str s => .ok (utf8 s)
  | .bytes b => .ok b
  | .seq xs => rivAddSeq xs
  | _ => .raise .typeError

/-- encoders/rivine.py:165-183 `add_slice`. -/
def rivAddSlice : Val → Out
  | .str s => rivSliceStr s
  | .bytes b => rivSliceBytes b
  | .seq xs => (rivSliceLen xs.length).andThen (rivAddSeq xs)
  | _ => .raise .typeError

/-- encoders/rivine.py:201-218 `add_byte`. -/
def rivAddByte : Val → Out
  | .int v => rivInt8 v
  | .bool b => .ok [if b then 1 else 0]
  | .str s => if (utf8 s).length ≠ 1 then .raise .valueError else .ok (utf8 s)
  | .bytes b => if b.length ≠ 1 then .raise .valueError else .ok b
  | _ => .raise .valueError

/-- encoders/__init__.py:15-18 `rivine_encode(*values)`. -/
def rivEncode (vs : List Val) : Res Bytes := (rivAddSeq vs).toRes

/-- One call on an encoder object (either kind), for histories. -/
inductive EncCall where
  | add (v : Val) | addAll (vs : List Val) | addArray (v : Val) | addSlice (v : Val) | addByte (v : Val)
  | addInt (i : Int)
  | reset

/-- encoders/sia.py:39-170: the state of the encoder (`_data`) after one call; `reset` empties it. -/
def siaStep (data : Bytes) : EncCall → Bytes × Option Err
  | .add v => let o := siaAdd v; (data ++ o.bytes, o.err)
  | .addAll vs => let o := siaAddSeq vs; (data ++ o.bytes, o.err)
  | .addArray v => let o := siaAddArray v; (data ++ o.bytes, o.err)
  | .addSlice v => let o := siaAddSlice v; (data ++ o.bytes, o.err)
  | .addByte v => let o := siaAddByte v; (data ++ o.bytes, o.err)
  | .addInt i => let o := siaInt i; (data ++ o.bytes, o.err)
  | .reset => ([], none)

/-- encoders/rivine.py:43-230 likewise (`addInt` is `add_int64`). -/
def rivStep (data : Bytes) : EncCall → Bytes × Option Err
  | .add v => let o := rivAdd v; (data ++ o.bytes, o.err)
  | .addAll vs => let o := rivAddSeq vs; (data ++ o.bytes, o.err)
  | .addArray v => let o := rivAddArray v; (data ++ o.bytes, o.err)
  | .addSlice v => let o := rivAddSlice v; (data ++ o.bytes, o.err)
  | .addByte v => let o := rivAddByte v; (data ++ o.bytes, o.err)
  | .addInt i => let o := rivInt64 i; (data ++ o.bytes, o.err)
  | .reset => ([], none)

end TF
