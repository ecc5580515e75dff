import Verif.Model.Conditions
/-! # Comparing amounts, binary data and addresses (types/PrimitiveTypes.py, types/ConditionTypes.py)

The operators `<`, `<=`, `==`, `!=`, `>`, `>=` of `Currency`, `==` and `!=` of `BinaryData` (with `Hash` and the other subclasses) and of
`UnlockHash`, and `hash()` of the last two. An operator applied with a plain value on the left (`5 < c`, `text == h`) is answered by Python
with the mirrored operator of the object on the right, as plain values do not know these classes. -/
namespace TF

/-- A comparison operator. -/
inductive CmpOp | lt | le | eq | ne | gt | ge
  deriving DecidableEq, Repr

/-- The operator Python calls on the right operand when the left one does not know it (language reference, 3.3.1). -/
def CmpOp.mirror : CmpOp → CmpOp
  | .lt => .gt | .le => .ge | .eq => .eq | .ne => .ne | .gt => .lt | .ge => .le

/-- types/PrimitiveTypes.py:268-290 (`__lt__` … `__ge__`): the operand becomes a `Currency` (:292-301), then the decimals are compared. -/
def Currency.compare (op : CmpOp) (c : Currency) (o : COperand) : Res Bool := do
  let b ← o.asCurrency
  return match op with
  | .lt => c.value.lt b.value
  | .le => c.value.lt b.value || c.value.eqv b.value
  | .eq => c.value.eqv b.value
  | .ne => !c.value.eqv b.value
  | .gt => b.value.lt c.value
  | .ge => b.value.lt c.value || c.value.eqv b.value

/-- types/PrimitiveTypes.py:110-125 `_op_other_as_binary_data`: text and bytes are read with the size and encoding of `d`, data objects are
taken as they are, and must have the same size and encoding. -/
def BinData.operand (d : BinData) (v : BVal) : Res BinData := do
  let o ← match v with
    | .str s => BinData.new (.str s) (d.fixed.map Int.ofNat) d.enc
    | .bytes b => BinData.new (.bytes b) (d.fixed.map Int.ofNat) d.enc
    | .data o => pure o
    | _ => throw .typeError
  if d.fixed ≠ o.fixed then throw .typeError
  if d.enc ≠ o.enc then throw .typeError
  return o

/-- types/PrimitiveTypes.py:102-104 `__eq__`. -/
def BinData.equals (d : BinData) (v : BVal) : Res Bool := do return (← d.operand v).value = d.value
/-- types/PrimitiveTypes.py:106-108 `__ne__`. -/
def BinData.differs (d : BinData) (v : BVal) : Res Bool := do return (← d.operand v).value ≠ d.value
/-- types/PrimitiveTypes.py:127-128 `__hash__`: Python's hash of the text form; `hashStr` is Python's `hash` of a str. -/
def BinData.pyHash (hashStr : Str → Int) (d : BinData) : Int := hashStr d.str

/-- A `Hash` as the binary data it is (types/PrimitiveTypes.py:158-159). -/
def Hash.data (h : Hash) : BinData := ⟨h.value, some 32, .hex⟩
/-- types/PrimitiveTypes.py:127-128 with `Hash.__str__` (:170-174). -/
def Hash.pyHash (hashStr : Str → Int) (h : Hash) : Int := hashStr h.str

/-- types/ConditionTypes.py:377-383 `_op_other_as_unlockhash`. -/
def UnlockHash.operand (H : Bytes → Bytes) : OwnerArg → Res UnlockHash
  | .str s => UnlockHash.fromStr H s
  | .uh u => .ok u
  | _ => .error .typeError
/-- types/ConditionTypes.py:367-369 `__eq__`: the hashes are compared only when the types are the same. -/
def UnlockHash.equals (H : Bytes → Bytes) (u : UnlockHash) (o : OwnerArg) : Res Bool := do
  let v ← UnlockHash.operand H o
  if u.type = v.type then u.hash.data.equals (.data v.hash.data) else return false
/-- types/ConditionTypes.py:370-372 `__ne__`. -/
def UnlockHash.differs (H : Bytes → Bytes) (u : UnlockHash) (o : OwnerArg) : Res Bool := do
  let v ← UnlockHash.operand H o
  if u.type ≠ v.type then return true else u.hash.data.differs (.data v.hash.data)
/-- types/ConditionTypes.py:374-375 `__hash__`. -/
def UnlockHash.pyHash (hashStr : Str → Int) (H : Bytes → Bytes) (u : UnlockHash) : Int := hashStr (u.str H)

end TF
