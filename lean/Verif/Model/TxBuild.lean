import Verif.Model.Transactions
/-!
# Building transactions: the setters and adders of the transaction classes, and the 3Bot fees
-/
namespace TF

/-! ## Inputs and outputs -/

/-- `self.coin_input_add(ci.parentid, ci.fulfillment, parent_output=ci.parent_output)` for each given input: the `coin_inputs` setters
(Standard.py:116-124, ThreeBot.py:143-149, 497-503, 951-957, ERC20.py:59-66, 467-474). The getter of `parent_output` (IO.py:64-66)
replaces an unknown parent by `CoinOutput()`. -/
def copyInputs (l : List CoinInput) : List CoinInput :=
  l.map fun ci => ⟨ci.parentId, ci.fulfillment, some ci.parentOutput⟩

/-- The `coin_inputs` setters of all classes; the classes without one raise `AttributeError`. -/
def Tx.setCoinInputs (t : Tx) (l : List CoinInput) : Res Tx :=
  match t with
  | .v1 t => .ok (.v1 { t with coinInputs := copyInputs l })
  | .v144 t => .ok (.v144 { t with coinInputs := copyInputs l })
  | .v145 t => .ok (.v145 { t with coinInputs := copyInputs l })
  | .v146 t => .ok (.v146 { t with coinInputs := some (copyInputs l) })
  | .v208 t => .ok (.v208 { t with coinInputs := copyInputs l })
  | .v210 t => .ok (.v210 { t with coinInputs := some (copyInputs l) })
  | _ => .error .attributeError

/-- `coin_input_add` (Standard.py:142-145, ThreeBot.py:186-189, 540-543, 994-997, ERC20.py:103-106, 511-514): appends an input; the
name transfer and address registration classes start with `None`, which has no `append`. -/
def Tx.coinInputAdd (t : Tx) (parentId : Hash) (f : Fulfillment) (parent : Option CoinOutput) : Res Tx :=
  match t with
  | .v1 t => .ok (.v1 { t with coinInputs := t.coinInputs ++ [⟨parentId, f, parent⟩] })
  | .v144 t => .ok (.v144 { t with coinInputs := t.coinInputs ++ [⟨parentId, f, parent⟩] })
  | .v145 t => .ok (.v145 { t with coinInputs := t.coinInputs ++ [⟨parentId, f, parent⟩] })
  | .v146 t => match t.coinInputs with
    | none => .error .attributeError
    | some l => .ok (.v146 { t with coinInputs := some (l ++ [⟨parentId, f, parent⟩]) })
  | .v208 t => .ok (.v208 { t with coinInputs := t.coinInputs ++ [⟨parentId, f, parent⟩] })
  | .v210 t => match t.coinInputs with
    | none => .error .attributeError
    | some l => .ok (.v210 { t with coinInputs := some (l ++ [⟨parentId, f, parent⟩]) })
  | _ => .error .attributeError

/-- `coin_output_add` (Standard.py:147-150, Minting.py:262-265) with a `Currency` and a condition. -/
def TxV1.coinOutputAdd (t : TxV1) (v : Currency) (c : Condition) (id : Hash := ⟨[]⟩) : TxV1 :=
  { t with coinOutputs := t.coinOutputs ++ [⟨v, c, id⟩] }

/-- The refund setters `coin_outputs = …` (ThreeBot.py:168-184, ERC20.py:86-101): at most one output. -/
def setRefund : List CoinOutput → Res (Option CoinOutput)
  | [] => .ok none
  | [co] => .ok (some co)
  | _ => .error .valueError

/-- `miner_fee_add` (Standard.py:190-191, Minting.py:122-123, 267-268). -/
def TxV1.minerFeeAdd (t : TxV1) (v : CVal) : Res TxV1 := do
  return { t with minerFees := t.minerFees ++ [← Currency.set v] }

/-! ## Arbitrary data -/

/-- What the `data` setter may be given; `other` has no length or is refused by `BinaryData`. -/
inductive DataArg
  | none
  | str (s : Str)
  | bytes (b : Bytes)
  | data (d : BinData)
  | other

/-- The `data` setters: types/transactions/Standard.py:211-224 and Minting.py:45-58, 238-251. The new bytes. -/
def setData : DataArg → Res Bytes
  | .none => .ok []
  | .data d => if d.value.length > 83 then .error .valueError else .ok d.value
  | .str s => if (utf8 s).length > 83 then .error .valueError else .ok (utf8 s)
  | .bytes b => if b.length > 83 then .error .valueError else .ok b
  | .other => .error .typeError

/-- `tx.data = value` on a transaction: the transaction afterwards and the exception, if any. Classes without a setter raise
`AttributeError`. -/
def Tx.setData (t : Tx) (v : DataArg) : Tx × Option Err :=
  match t, TF.setData v with
  | .v1 t, .ok b => (.v1 { t with data := b }, none)
  | .v128 t, .ok b => (.v128 { t with data := b }, none)
  | .v129 t, .ok b => (.v129 { t with data := b }, none)
  | .v1 t, .error e => (.v1 t, some e)
  | .v128 t, .error e => (.v128 t, some e)
  | .v129 t, .error e => (.v129 t, some e)
  | t, _ => (t, some .attributeError)

/-- The bytes of the `data` getters (Base.py:167-173, Standard.py:201-209, Minting.py:35-43). -/
def Tx.data : Tx → Bytes
  | .v1 t => t.data
  | .v128 t => t.data
  | .v129 t => t.data
  | _ => []

/-! ## 3Bot lists -/

/-- `if len(l) == max: raise Exception; l.append(mk(x))` (ThreeBot.py:208-215, 231-238, 562-569, 587-594, 612-619, 637-644,
1016-1023). -/
def addLimited {α β : Type} (max : Nat) (mk : α → Res β) (l : List β) (x : α) : List β × Option Err :=
  if l.length = max then (l, some .exception)
  else match mk x with
  | .ok y => (l ++ [y], none)
  | .error e => (l, some e)

/-- The same for each element of an assigned list, up to the first that is refused (ThreeBot.py:200-206 and elsewhere). -/
def addAllLimited {α β : Type} (max : Nat) (mk : α → Res β) : List β → List α → List β × Option Err
  | l, [] => (l, none)
  | l, x :: xs => match addLimited max mk l x with
    | (l', none) => addAllLimited max mk l' xs
    | (l', some e) => (l', some e)

/-- ThreeBot.py:21-22. -/
def maxNames : Nat := 5
@[inherit_doc maxNames] def maxAddresses : Nat := 10

/-- The operations on the lists of a registration or record update (ThreeBot.py:193-238, 547-644). A registration has only the `add`
lists. -/
inductive BotListOp
  | addressAdd (a : NetArg)
  | addressesSet (l : List NetArg)
  | addressRemove (a : NetArg)
  | addressesRemoveSet (l : List NetArg)
  | nameAdd (n : NameArg)
  | namesSet (l : List NameArg)
  | nameRemove (n : NameArg)
  | namesRemoveSet (l : List NameArg)

/-- types/transactions/ThreeBot.py:193-238. -/
def TxV144.listOp (L : IpLib) (t : TxV144) : BotListOp → TxV144 × Option Err
  | .addressAdd a => let r := addLimited maxAddresses (NetAddr.new L) t.addresses a; ({ t with addresses := r.1 }, r.2)
  | .addressesSet l => let r := addAllLimited maxAddresses (NetAddr.new L) [] l; ({ t with addresses := r.1 }, r.2)
  | .nameAdd n => let r := addLimited maxNames BotName.new t.names n; ({ t with names := r.1 }, r.2)
  | .namesSet l => let r := addAllLimited maxNames BotName.new [] l; ({ t with names := r.1 }, r.2)
  | _ => (t, some .attributeError)

/-- types/transactions/ThreeBot.py:547-644. -/
def TxV145.listOp (L : IpLib) (t : TxV145) : BotListOp → TxV145 × Option Err
  | .addressAdd a => let r := addLimited maxAddresses (NetAddr.new L) t.addrsAdd a; ({ t with addrsAdd := r.1 }, r.2)
  | .addressesSet l => let r := addAllLimited maxAddresses (NetAddr.new L) [] l; ({ t with addrsAdd := r.1 }, r.2)
  | .addressRemove a => let r := addLimited maxAddresses (NetAddr.new L) t.addrsRemove a; ({ t with addrsRemove := r.1 }, r.2)
  | .addressesRemoveSet l => let r := addAllLimited maxAddresses (NetAddr.new L) [] l; ({ t with addrsRemove := r.1 }, r.2)
  | .nameAdd n => let r := addLimited maxNames BotName.new t.namesAdd n; ({ t with namesAdd := r.1 }, r.2)
  | .namesSet l => let r := addAllLimited maxNames BotName.new [] l; ({ t with namesAdd := r.1 }, r.2)
  | .nameRemove n => let r := addLimited maxNames BotName.new t.namesRemove n; ({ t with namesRemove := r.1 }, r.2)
  | .namesRemoveSet l => let r := addAllLimited maxNames BotName.new [] l; ({ t with namesRemove := r.1 }, r.2)

/-- types/transactions/ThreeBot.py:1008-1023: the `names` setter of a name transfer empties `_names_to_add`, not `_names`, so the new
names are appended to the old ones. -/
def TxV146.listOp (t : TxV146) : BotListOp → TxV146 × Option Err
  | .nameAdd n => let r := addLimited maxNames BotName.new t.names n; ({ t with names := r.1 }, r.2)
  | .namesSet l => let r := addAllLimited maxNames BotName.new t.names l; ({ t with names := r.1 }, r.2)
  | _ => (t, some .attributeError)

/-- types/transactions/ThreeBot.py:263-267. -/
def TxV144.setMonths (t : TxV144) (n : Int) : Res TxV144 :=
  if n < 1 ∨ n > 24 then .error .valueError else .ok { t with months := n }
/-- types/transactions/ThreeBot.py:669-673. -/
def TxV145.setMonths (t : TxV145) (n : Int) : Res TxV145 :=
  if n < 0 ∨ n > 24 then .error .valueError else .ok { t with months := n }
/-- types/transactions/ThreeBot.py:482-492 (and 918-944): a bot id given as int is at least 1. -/
def setBotId (v : Int) : Res (Option Int) := if v ≤ 0 then .error .valueError else .ok (some v)

/-! ## 3Bot fees -/

/-- ThreeBot.py:16-19. -/
def feeAddressUpdate : Currency := ⟨some ⟨false, 20, 0⟩⟩
@[inherit_doc feeAddressUpdate] def feeName : Currency := ⟨some ⟨false, 50, 0⟩⟩
@[inherit_doc feeAddressUpdate] def feeRegistration : Currency := ⟨some ⟨false, 90, 0⟩⟩
@[inherit_doc feeAddressUpdate] def feeMonthly : Currency := ⟨some ⟨false, 10, 0⟩⟩

/-- types/transactions/ThreeBot.py:27-38 `compute_monthly_bot_fees`. -/
def monthlyFees (months : Int) : Res Currency := do
  let fees ← feeMonthly.mul (.int months)
  if months < 12 then return fees
  else if months < 24 then fees.mul (.float "0.7".toList)
  else fees.mul (.float "0.5".toList)

/-- types/transactions/ThreeBot.py:121-136. -/
def TxV144.requiredFees (t : TxV144) : Res Currency := do
  let fees ← feeRegistration.add (.int 0)
  let fees ← fees.add (.cur (← monthlyFees t.months))
  if t.names.length > 1 then
    fees.add (.cur (← feeName.mul (.int (t.names.length - 1 : Nat))))
  else return fees

/-- types/transactions/ThreeBot.py:468-470. -/
def updateMonths (months : Int) (fees : Currency) : Res Currency :=
  if months > 0 then do fees.add (.cur (← monthlyFees months)) else .ok fees
/-- types/transactions/ThreeBot.py:471-474. -/
def updateAddresses (add rem : List NetAddr) (fees : Currency) : Res Currency :=
  if add.length > 0 ∨ rem.length > 0 then fees.add (.cur feeAddressUpdate) else .ok fees
/-- types/transactions/ThreeBot.py:475-479. -/
def updateNames (add : List BotName) (fees : Currency) : Res Currency :=
  if add.length > 0 then do fees.add (.cur (← feeName.mul (.int add.length))) else .ok fees

/-- types/transactions/ThreeBot.py:464-481. -/
def TxV145.requiredFees (t : TxV145) : Res Currency := do
  let fees ← Currency.set (.int 0)
  let fees ← updateMonths t.months fees
  let fees ← updateAddresses t.addrsAdd t.addrsRemove fees
  updateNames t.namesAdd fees

/-- types/transactions/ThreeBot.py:905-910. -/
def TxV146.requiredFees (t : TxV146) : Res Currency := feeName.mul (.int t.names.length)

end TF
