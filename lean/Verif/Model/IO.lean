import Verif.Model.Fulfillments
/-!
# types/IO.py
-/
namespace TF

/-- types/IO.py:120-133 `CoinOutput`. A `None` condition is `ConditionNil` (155-163), a missing id the empty `Hash`. -/
structure CoinOutput where
  value : Currency
  condition : Condition
  id : Hash := ⟨[]⟩
  deriving DecidableEq, Repr

/-- `CoinOutput()`. -/
def CoinOutput.default : CoinOutput := ⟨⟨none⟩, .nil, ⟨[]⟩⟩

/-- types/IO.py:8-21 `CoinInput`; `parent = none` is the unset parent output. -/
structure CoinInput where
  parentId : Hash
  fulfillment : Fulfillment
  parent : Option CoinOutput := none
  deriving DecidableEq, Repr

/-- types/IO.py:307-320 `BlockstakeOutput`. -/
structure StakeOutput where
  value : Blockstake
  condition : Condition
  id : Hash := ⟨[]⟩
  deriving DecidableEq, Repr

/-- `BlockstakeOutput()`. -/
def StakeOutput.default : StakeOutput := ⟨⟨0⟩, .nil, ⟨[]⟩⟩

/-- types/IO.py:195-207 `BlockstakeInput`. Its parent output is never unset: the setter (255-263) replaces `None` by
`BlockstakeOutput()`, and the constructor uses the setter. -/
structure StakeInput where
  parentId : Hash
  fulfillment : Fulfillment
  parent : StakeOutput := .default
  deriving DecidableEq, Repr

/-- types/IO.py:64-66: the `parent_output` getter of a coin input. -/
def CoinInput.parentOutput (ci : CoinInput) : CoinOutput := ci.parent.getD .default

/-- types/IO.py:28-37 `CoinInput.from_coin_output`. -/
def CoinInput.ofOutput (co : CoinOutput) : Res CoinInput := do
  let f ← fulfillmentFromCondition (some co.condition)
  return ⟨co.id, f, some co⟩

/-- types/IO.py:215-224 `BlockstakeInput.from_blockstake_output`. -/
def StakeInput.ofOutput (bso : StakeOutput) : Res StakeInput := do
  let f ← fulfillmentFromCondition (some bso.condition)
  return ⟨bso.id, f, bso⟩

/-! ## JSON -/

/-- types/PrimitiveTypes.py:161-168 `Hash.from_json` on any JSON value. -/
def hashOfJson : Json → Res Hash
  | .null => Hash.new .none
  | .str s => Hash.fromJson s
  | _ => .error .typeError

/-- types/PrimitiveTypes.py:190-199 `Currency.from_json` on any JSON value (`Decimal(None)` raises `TypeError`). -/
def currencyOfJson : Json → Res Currency
  | .str s => Currency.fromJson s
  | _ => .error .typeError

/-- types/PrimitiveTypes.py:365-372 `Blockstake.from_json` on any JSON value. -/
def stakeOfJson : Json → Res Blockstake
  | .null => Blockstake.set .none
  | .str s => Blockstake.fromJson s
  | _ => .error .typeError

/-- types/IO.py:78-82. -/
def CoinInput.json (ci : CoinInput) : Json :=
  .obj [("parentid", .str ci.parentId.str), ("fulfillment", ci.fulfillment.json)]
/-- types/IO.py:22-26. -/
def CoinInput.fromJson (j : Json) : Res CoinInput := do
  let p ← hashOfJson (← j.idx "parentid")
  let f ← Fulfillment.fromJson (← j.idx "fulfillment")
  return ⟨p, f, none⟩

/-- types/IO.py:176-180. -/
def CoinOutput.json (H : Bytes → Bytes) (co : CoinOutput) : Json :=
  .obj [("value", .str co.value.json), ("condition", co.condition.json H)]
/-- types/IO.py:134-138. -/
def CoinOutput.fromJson (H : Bytes → Bytes) (j : Json) : Res CoinOutput := do
  let v ← currencyOfJson (← j.idx "value")
  let c ← Condition.fromJson H (← j.idx "condition")
  return ⟨v, c, ⟨[]⟩⟩

/-- types/IO.py:265-269. -/
def StakeInput.json (bsi : StakeInput) : Json :=
  .obj [("parentid", .str bsi.parentId.str), ("fulfillment", bsi.fulfillment.json)]
/-- types/IO.py:209-213. -/
def StakeInput.fromJson (j : Json) : Res StakeInput := do
  let p ← hashOfJson (← j.idx "parentid")
  let f ← Fulfillment.fromJson (← j.idx "fulfillment")
  return ⟨p, f, .default⟩

/-- types/IO.py:363-367. -/
def StakeOutput.json (H : Bytes → Bytes) (o : StakeOutput) : Json :=
  .obj [("value", .str o.value.json), ("condition", o.condition.json H)]
/-- types/IO.py:321-325. -/
def StakeOutput.fromJson (H : Bytes → Bytes) (j : Json) : Res StakeOutput := do
  let v ← stakeOfJson (← j.idx "value")
  let c ← Condition.fromJson H (← j.idx "condition")
  return ⟨v, c, ⟨[]⟩⟩

/-! ## Binary encodings -/

/-- A hash as a value given to an encoder (an array). -/
def Hash.val (h : Hash) : Val := .obj (.ok h.enc) (.ok h.enc)
/-- A currency as a value given to an encoder. -/
def Currency.toVal (c : Currency) : Val := .obj c.sia c.riv
/-- A blockstake value given to an encoder. -/
def Blockstake.toVal (b : Blockstake) : Val := .obj b.sia b.riv

/-- types/IO.py:84-94. -/
def CoinInput.val (ci : CoinInput) : Val :=
  .obj (siaAddSeq [ci.parentId.val, ci.fulfillment.val]) (rivAddSeq [ci.parentId.val, ci.fulfillment.val])
/-- types/IO.py:182-192. -/
def CoinOutput.val (co : CoinOutput) : Val :=
  .obj (siaAddSeq [co.value.toVal, co.condition.val]) (rivAddSeq [co.value.toVal, co.condition.val])
/-- types/IO.py:271-281. -/
def StakeInput.val (bsi : StakeInput) : Val :=
  .obj (siaAddSeq [bsi.parentId.val, bsi.fulfillment.val]) (rivAddSeq [bsi.parentId.val, bsi.fulfillment.val])
/-- types/IO.py:369-379. -/
def StakeOutput.val (o : StakeOutput) : Val :=
  .obj (siaAddSeq [o.value.toVal, o.condition.val]) (rivAddSeq [o.value.toVal, o.condition.val])

/-! ## Signing -/

/-- types/IO.py:96-109. -/
def CoinInput.requests (H : Bytes → Bytes) (ci : CoinInput) : Res (List Request) :=
  match ci.parent with
  | none => .ok []
  | some co => ci.fulfillment.requests H co.condition

/-- types/IO.py:111-117. -/
def CoinInput.isFulfilled (ci : CoinInput) : Res Bool :=
  match ci.parent with
  | none => .ok false
  | some co => ci.fulfillment.isFulfilled co.condition

/-- types/IO.py:283-296. -/
def StakeInput.requests (H : Bytes → Bytes) (bsi : StakeInput) : Res (List Request) :=
  bsi.fulfillment.requests H bsi.parent.condition

/-- types/IO.py:298-304. -/
def StakeInput.isFulfilled (bsi : StakeInput) : Res Bool :=
  bsi.fulfillment.isFulfilled bsi.parent.condition

end TF
