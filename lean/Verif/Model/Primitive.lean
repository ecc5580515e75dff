import Verif.Model.Decimal
import Verif.Model.Encoders
/-!
# types/PrimitiveTypes.py
-/

namespace TF

/-! ## BinaryData -/

/-- types/PrimitiveTypes.py:14-30: the `strencoding` argument. `None` and `'hex'` use the same conversion but are
distinguished by `__eq__` (line 121). Spelling variants (case, spaces) of the names are not modelled. -/
inductive StrEnc | none | hex | base64 | hexprefix
  deriving DecidableEq, Repr

/-- types/PrimitiveTypes.py:18, 21, 24-25: `_from_str`. -/
def StrEnc.fromStr : StrEnc → Str → Option Bytes
  | .none, s => fromHex s
  | .hex, s => fromHex s
  | .base64, s => fromB64 s
  | .hexprefix, s => fromHex (if s.take 2 = ['0', 'x'] ∨ s.take 2 = ['0', 'X'] then s.drop 2 else s)

/-- types/PrimitiveTypes.py:19, 22, 26: `_to_str`. -/
def StrEnc.toStr : StrEnc → Bytes → Str
  | .none, b => toHex b
  | .hex, b => toHex b
  | .base64, b => toB64 b
  | .hexprefix, b => '0' :: 'x' :: toHex b

/-- types/PrimitiveTypes.py:7-52 `BinaryData` (`_value`, `_fixed_size`, `_strencoding`). -/
structure BinData where
  value : Bytes
  fixed : Option Nat
  enc : StrEnc
  deriving DecidableEq, Repr

/-- What `value` may be set to (types/PrimitiveTypes.py:70-80); `other` is any other Python value. -/
inductive BVal
  | none
  | str (s : Str)
  | bytes (b : Bytes)
  | data (d : BinData)
  | other

/-- types/PrimitiveTypes.py:69-80: normalisation of an assigned value. -/
def BVal.norm (enc : StrEnc) : BVal → Res Bytes
  | .none => .ok []
  | .str s => match enc.fromStr s with
    | some b => .ok b
    | Option.none => .error .valueError
  | .bytes b => .ok b
  | .data d => .ok d.value
  | .other => .error .typeError

/-- types/PrimitiveTypes.py:67-88: the `value` setter. On an exception the object keeps its old value. -/
def BinData.set (d : BinData) (v : BVal) : Res BinData := do
  let b ← v.norm d.enc
  match d.fixed with
  | none => return { d with value := b }
  | some n => if b.length ≠ 0 ∧ b.length ≠ n then throw .valueError else return { d with value := b }

/-- types/PrimitiveTypes.py:12-52: the constructor. `fixed_size = 0` means "the length of the initial value". -/
def BinData.new (v : BVal) (fixed : Option Int) (enc : StrEnc) : Res BinData := do
  match fixed with
  | none => BinData.set ⟨[], none, enc⟩ v
  | some n =>
    if n < 0 then throw .typeError
    else if n ≠ 0 then BinData.set ⟨[], some n.toNat, enc⟩ v
    else
      let d ← BinData.set ⟨[], none, enc⟩ v
      return { d with fixed := some d.value.length }

/-- types/PrimitiveTypes.py:93-100: `__str__` / `json`. -/
def BinData.str (d : BinData) : Str := d.enc.toStr d.value

/-- types/PrimitiveTypes.py:54-61: `from_json` on a str (`''` is treated as `None`). -/
def BinData.fromJson (s : Str) (fixed : Option Int) (enc : StrEnc) : Res BinData :=
  BinData.new (if s = [] then .none else .str s) fixed enc

/-- types/PrimitiveTypes.py:102-125: `__eq__` between two `BinaryData`. -/
def BinData.eq (a b : BinData) : Res Bool :=
  if a.fixed ≠ b.fixed then .error .typeError
  else if a.enc ≠ b.enc then .error .typeError
  else .ok (a.value = b.value)

/-- types/PrimitiveTypes.py:130-138: `sia_binary_encode`. -/
def BinData.sia (d : BinData) : Out := if d.fixed = none then siaSliceBytes d.value else .ok d.value
/-- types/PrimitiveTypes.py:140-148: `rivine_binary_encode`. -/
def BinData.riv (d : BinData) : Out := if d.fixed = none then rivSliceBytes d.value else .ok d.value

/-! ## Hash -/

/-- types/PrimitiveTypes.py:151-159 `Hash`: a `BinaryData` with fixed size 32 and encoding `'hex'`; only the value varies, and
it is empty or 32 bytes long. -/
structure Hash where
  value : Bytes
  deriving DecidableEq, Repr

/-- types/PrimitiveTypes.py:158-159 with the setter 67-88. -/
def Hash.new (v : BVal) : Res Hash := do
  let d ← BinData.new v (some 32) .hex
  return ⟨d.value⟩

/-- types/PrimitiveTypes.py:161-168: `from_json` on a str. -/
def Hash.fromJson (s : Str) : Res Hash := Hash.new (if s = [] then .none else .str s)

/-- types/PrimitiveTypes.py:170-174: `__str__`; the empty hash prints as 64 zeros. -/
def Hash.str (h : Hash) : Str :=
  let s := toHex h.value
  if s = [] then List.replicate 64 '0' else s

/-- types/PrimitiveTypes.py:130-148 for a `Hash` (fixed size, hence an array). -/
def Hash.enc (h : Hash) : Bytes := h.value

/-! ## Currency -/

/-- types/PrimitiveTypes.py:181-188: `_value` is `None` or a finite `Decimal`. -/
structure Currency where
  val : Option Dec
  deriving DecidableEq, Repr

/-- types/PrimitiveTypes.py:201-205: the `value` getter (`Decimal()` is `0`). -/
def Currency.value (c : Currency) : Dec := c.val.getD ⟨false, 0, 0⟩

/-- What `value` may be set to (types/PrimitiveTypes.py:208-229). -/
inductive CVal
  | none
  | cur (c : Currency)
  | int (i : Int)
  | str (s : Str)
  | dec (d : DecLit)
  | other

/-- types/PrimitiveTypes.py:221-227. The name `errors` is not bound in the module (only `tfchain` is, line 3), so the two
`raise errors.…` statements raise `NameError`. For NaN/Infinity `exp` is a str and `exp < -9` raises `TypeError`. -/
def Currency.checkDec : DecLit → Res Currency
  | .special => .error .typeError
  | .fin d =>
    if d.exp < -9 then .error .nameError
    else if d.neg then .error .nameError
    else .ok ⟨some d⟩

/-- types/PrimitiveTypes.py:217-219: upper-case, strip, drop a `TFT` suffix. -/
def Currency.stripUnit (s : Str) : Str :=
  let v := strip (upper s)
  if 4 ≤ v.length ∧ v.drop (v.length - 3) = ['T', 'F', 'T'] then rstrip isPySpace (v.take (v.length - 3)) else v

/-- types/PrimitiveTypes.py:207-229: the `value` setter (and the constructor). -/
def Currency.set : CVal → Res Currency
  | .none => .ok ⟨none⟩
  | .cur c => .ok ⟨some c.value⟩
  | .int i => Currency.checkDec (.fin (Dec.ofInt i))
  | .str s => match parseDec (Currency.stripUnit s) with
    | Option.none => .error .decimalInvalidOperation
    | some d => Currency.checkDec d
  | .dec d => Currency.checkDec d
  | .other => .error .typeError

/-- An operand of a `Currency` operator (types/PrimitiveTypes.py:292-301). A float is given by its `str(...)`. -/
inductive COperand
  | int (i : Int)
  | str (s : Str)
  | float (repr : Str)
  | cur (c : Currency)
  | other

/-- types/PrimitiveTypes.py:292-301 `_op_other_as_currency`. -/
def COperand.asCurrency : COperand → Res Currency
  | .int i => Currency.set (.int i)
  | .str s => Currency.set (.str s)
  | .float r => match parseDec r with
    | none => .error .decimalInvalidOperation
    | some d => Currency.set (.dec d)
  | .cur c => .ok c
  | .other => .error .typeError

/-- types/PrimitiveTypes.py:232-241 `__add__`, `__radd__`, `__iadd__`. -/
def Currency.add (c : Currency) (o : COperand) : Res Currency := do
  let b ← o.asCurrency
  Currency.set (.dec (.fin (c.value.add b.value)))

/-- types/PrimitiveTypes.py:244-253 `__mul__`, `__rmul__`, `__imul__`. -/
def Currency.mul (c : Currency) (o : COperand) : Res Currency := do
  let b ← o.asCurrency
  Currency.set (.dec (.fin (c.value.mul b.value)))

/-- types/PrimitiveTypes.py:256-265 `__sub__`, `__isub__`. -/
def Currency.sub (c : Currency) (o : COperand) : Res Currency := do
  let b ← o.asCurrency
  Currency.set (.dec (.fin (c.value.sub b.value)))

/-- types/PrimitiveTypes.py:260 `__rsub__ = __sub__`: `x - c` evaluates `c.__rsub__(x)`. -/
def Currency.rsub (c : Currency) (x : COperand) : Res Currency := c.sub x

/-- types/PrimitiveTypes.py:268-290: the comparison operators on two currencies. -/
def Currency.lt (a b : Currency) : Bool := a.value.lt b.value
/-- types/PrimitiveTypes.py:276-278. -/
def Currency.eqv (a b : Currency) : Bool := a.value.eqv b.value
/-- types/PrimitiveTypes.py:272-274: `a <= b`. -/
def Currency.le (a b : Currency) : Bool := a.lt b || a.eqv b

/-- types/PrimitiveTypes.py:304-306 `__int__`: the digits of `"{:.9f}"` without the point (a `-` cannot occur). -/
def Currency.toInt (c : Currency) : Nat := digVal ((fmt9 c.value).filter (· ≠ '.'))

/-- types/PrimitiveTypes.py:308-326 `str(with_unit)`. -/
def Currency.str (c : Currency) (withUnit : Bool) : Str :=
  let s := rstrip (fun c => c == '0' || c == ' ') (fmt9 c.value)
  let s := if s.getLast? = some '.' then s.dropLast else s
  let s := if s.length = 0 then ['0'] else s
  if withUnit then s ++ " TFT".toList else s

/-- types/PrimitiveTypes.py:331-332 `json`. -/
def Currency.json (c : Currency) : Str := natStr c.toInt

/-- `Decimal(s)` is a signalling NaN, for a text that is special: every arithmetic operation on it raises `InvalidOperation`. -/
def isSignalling (s : Str) : Bool :=
  (upper (splitSign ((strip (s.map asciiDigit)).filter (· ≠ '_'))).2).take 4 == "SNAN".toList

/-- types/PrimitiveTypes.py:190-199 `from_json` on a str; `''` becomes `None` and `Decimal(None)` raises `TypeError`. -/
def Currency.fromJson (s : Str) : Res Currency :=
  if s = [] then .error .typeError
  else match parseDec s with
    | none => .error .decimalInvalidOperation
    | some .special => if isSignalling s then .error .decimalInvalidOperation else .error .typeError
    | some (.fin d) => Currency.set (.dec (.fin (d.mul ⟨false, 1, -9⟩)))

/-- `int.bit_length`. -/
def bitLength (n : Nat) : Nat := if n = 0 then 0 else Nat.log2 n + 1

/-- types/PrimitiveTypes.py:339-341: `nbytes, rem = divmod(bit_length, 8); if rem: nbytes += 1`. -/
def minBytes (n : Nat) : Nat :=
  let nb := bitLength n / 8
  let rem := bitLength n % 8
  if rem ≠ 0 then nb + 1 else nb

/-- types/PrimitiveTypes.py:334-343 and 408-416: `add_int(nbytes)` then the big-endian bytes. -/
def amountSia (n : Nat) : Out := (siaInt (minBytes n)).andThen (.ok (toBytesBE (minBytes n) n))
/-- types/PrimitiveTypes.py:345-353 and 418-425: a slice of the big-endian bytes. -/
def amountRiv (n : Nat) : Out := rivSliceBytes (toBytesBE (minBytes n) n)

/-- types/PrimitiveTypes.py:334-343. -/
def Currency.sia (c : Currency) : Out := amountSia c.toInt
/-- types/PrimitiveTypes.py:345-353. -/
def Currency.riv (c : Currency) : Out := amountRiv c.toInt

/-! ## Blockstake -/

/-- types/PrimitiveTypes.py:356-363. -/
structure Blockstake where
  value : Nat
  deriving DecidableEq, Repr

/-- What a `Blockstake` may be set to. (For a `Currency` see `StakeHeld` in Model/Stakes.) -/
inductive SVal
  | none
  | int (i : Int)
  | str (s : Str)
  | other

/-- types/PrimitiveTypes.py:378-397. -/
def Blockstake.set : SVal → Res Blockstake
  | .none => .ok ⟨0⟩
  | .int i => if i < 0 then .error .typeError else .ok ⟨i.toNat⟩
  | .str s => match pyInt s with
    | Option.none => .error .valueError
    | some i => if i < 0 then .error .typeError else .ok ⟨i.toNat⟩
  | .other => .error .typeError

/-- types/PrimitiveTypes.py:365-372. -/
def Blockstake.fromJson (s : Str) : Res Blockstake := Blockstake.set (if s = [] then .none else .str s)
/-- types/PrimitiveTypes.py:403-406. -/
def Blockstake.json (b : Blockstake) : Str := natStr b.value
/-- types/PrimitiveTypes.py:408-416. -/
def Blockstake.sia (b : Blockstake) : Out := amountSia b.value
/-- types/PrimitiveTypes.py:418-425. -/
def Blockstake.riv (b : Blockstake) : Out := amountRiv b.value

end TF
