import Verif.Model.Transactions
/-!
# JSON form of transactions: the `_json_data_object` / `_from_json_data_object` methods, `from_json`, `legacy_from_json`

`json()` gives a dict whose `version` is a `TransactionVersion` object (Base.py:197-202): `Json.ver`.
-/
namespace TF

/-! ## Helpers -/

/-- `sub in s` on two str. -/
def strContains (sub : Str) : Str → Bool
  | [] => sub.isEmpty
  | c :: s => sub.isPrefixOf (c :: s) || strContains sub s

/-- `k in v` for a str `k`. -/
def Json.has (j : Json) (k : String) : Res Bool :=
  match j with
  | .obj l => .ok (jget l k).isSome
  | .arr l => .ok (l.any fun x => match x with
    | .str s => s == k.toList
    | _ => false)
  | .str s => .ok (strContains k.toList s)
  | _ => .error .typeError

/-- `f(d[k]) if k in d else None`. -/
def optField {α : Type} (d : Json) (k : String) (f : Json → Res α) : Res (Option α) := do
  if ← d.has k then return some (← f (← d.idx k)) else return none

/-- types/PrimitiveTypes.py:54-61 `BinaryData.from_json(v, strencoding='base64')`. -/
def base64OfJson : Json → Res Bytes
  | .null => .ok []
  | .str s => do return (← BinData.fromJson s none .base64).value
  | _ => .error .typeError

/-- `int(d.get(k, 0) or 0)`. -/
def intField (d : Json) (k : String) : Res Int := do (← d.orDefault k (.int 0)).toInt

/-- `d.get(k, dflt)`. -/
def Json.getD (d : Json) (k : String) (dflt : Json) : Res Json := do
  match ← d.get? k with
  | none => return dflt
  | some v => return v

/-! ## Version 1 -/

/-- types/transactions/Standard.py:316-329: the items of the dict, those with a falsy value deleted. -/
def TxV1.jsonFields (H : Bytes → Bytes) (t : TxV1) : List (String × Json) :=
  [("coininputs", .arr (t.coinInputs.map CoinInput.json)), ("coinoutputs", .arr (t.coinOutputs.map (CoinOutput.json H))),
   ("blockstakeinputs", .arr (t.stakeInputs.map StakeInput.json)), ("blockstakeoutputs", .arr (t.stakeOutputs.map (StakeOutput.json H))),
   ("minerfees", .arr (t.minerFees.map fun c => .str c.json)), ("arbitrarydata", .str (StrEnc.base64.toStr t.data))].filter
    fun p => p.2.truthy

/-- types/transactions/Standard.py:302-314. -/
def TxV1.ofJson (H : Bytes → Bytes) (d : Json) : Res TxV1 := do
  let ci ← (← d.listField "coininputs").mapM CoinInput.fromJson
  let co ← (← d.listField "coinoutputs").mapM (CoinOutput.fromJson H)
  let si ← (← d.listField "blockstakeinputs").mapM StakeInput.fromJson
  let so ← (← d.listField "blockstakeoutputs").mapM (StakeOutput.fromJson H)
  let mf ← (← d.listField "minerfees").mapM currencyOfJson
  let ad ← base64OfJson (← d.orDefault "arbitrarydata" (.str []))
  return { coinInputs := ci, coinOutputs := co, stakeInputs := si, stakeOutputs := so, minerFees := mf, data := ad }

/-- `(d[k] or []) if k in d else []`, iterated over (Standard.py:37-97). -/
def legacyList (d : Json) (k : String) : Res (List Json) := do
  if ← d.has k then
    let v ← d.idx k
    if v.truthy then v.iter else return []
  else return []

/-- `x.get(k)` as a value. -/
def Json.getNull (d : Json) (k : String) : Res Json := d.getD k .null

/-- types/transactions/Standard.py:39-49, 64-74: a legacy input rewritten as a single-signature input. -/
def legacyInputInfo (x : Json) : Res Json := do
  let unlocker ← x.getD "unlocker" (.obj [])
  let p ← x.getD "parentid" (.str [])
  let pk ← (← unlocker.getD "condition" (.obj [])).getNull "publickey"
  let sig ← (← unlocker.getD "fulfillment" (.obj [])).getNull "signature"
  return .obj [("parentid", p), ("fulfillment", .obj [("type", .int 1), ("data", .obj [("publickey", pk), ("signature", sig)])])]

/-- types/transactions/Standard.py:53-61, 78-86: a legacy output rewritten as an unlock-hash output. -/
def legacyOutputInfo (x : Json) : Res Json := do
  let v ← x.getD "value" (.str ['0'])
  let u ← x.getD "unlockhash" (.str [])
  return .obj [("value", v), ("condition", .obj [("type", .int 1), ("data", .obj [("unlockhash", u)])])]

/-- types/transactions/Standard.py:22-103 `legacy_from_json`, once the version is known to be 0. -/
def TxV1.legacyOfJson (H : Bytes → Bytes) (j : Json) : Res TxV1 := do
  if !(← j.has "data") then throw .valueError
  let d ← j.idx "data"
  let ci ← (← legacyList d "coininputs").mapM fun x => do CoinInput.fromJson (← legacyInputInfo x)
  let co ← (← legacyList d "coinoutputs").mapM fun x => do CoinOutput.fromJson H (← legacyOutputInfo x)
  let si ← (← legacyList d "blockstakeinputs").mapM fun x => do StakeInput.fromJson (← legacyInputInfo x)
  let so ← (← legacyList d "blockstakeoutputs").mapM fun x => do StakeOutput.fromJson H (← legacyOutputInfo x)
  let mf ← (← legacyList d "minerfees").mapM currencyOfJson
  let ad ← if ← d.has "arbitrarydata" then base64OfJson (← d.orDefault "arbitrarydata" (.str [])) else pure []
  return { coinInputs := ci, coinOutputs := co, stakeInputs := si, stakeOutputs := so, minerFees := mf, data := ad, legacy := true }

/-! ## Minting -/

/-- types/transactions/Minting.py:179-186. -/
def TxV128.jsonFields (H : Bytes → Bytes) (t : TxV128) : List (String × Json) :=
  [("nonce", .str (StrEnc.base64.toStr t.nonce)), ("mintfulfillment", (t.mintFulfillment.getD (.single .default none)).json),
   ("mintcondition", t.mintCondition.json H), ("minerfees", .arr (t.minerFees.map fun c => .str c.json)),
   ("arbitrarydata", .str (StrEnc.base64.toStr t.data))]

/-- types/transactions/Minting.py:167-177. -/
def TxV128.ofJson (H : Bytes → Bytes) (d : Json) : Res TxV128 := do
  let n ← base64OfJson (← d.getD "nonce" (.str []))
  let c ← Condition.fromJson H (← d.getD "mintcondition" (.obj []))
  let f ← Fulfillment.fromJson (← d.getD "mintfulfillment" (.obj []))
  let mf ← (← d.listField "minerfees").mapM currencyOfJson
  let ad ← base64OfJson (← d.orDefault "arbitrarydata" (.str []))
  return { nonce := n, mintFulfillment := some f, mintCondition := c, minerFees := mf, data := ad }

/-- types/transactions/Minting.py:373-380. -/
def TxV129.jsonFields (H : Bytes → Bytes) (t : TxV129) : List (String × Json) :=
  [("nonce", .str (StrEnc.base64.toStr t.nonce)), ("mintfulfillment", (t.mintFulfillment.getD (.single .default none)).json),
   ("coinoutputs", .arr (t.coinOutputs.map (CoinOutput.json H))), ("minerfees", .arr (t.minerFees.map fun c => .str c.json)),
   ("arbitrarydata", .str (StrEnc.base64.toStr t.data))]

/-- types/transactions/Minting.py:361-371. -/
def TxV129.ofJson (H : Bytes → Bytes) (d : Json) : Res TxV129 := do
  let n ← base64OfJson (← d.getD "nonce" (.str []))
  let f ← Fulfillment.fromJson (← d.getD "mintfulfillment" (.obj []))
  let co ← (← d.listField "coinoutputs").mapM (CoinOutput.fromJson H)
  let mf ← (← d.listField "minerfees").mapM currencyOfJson
  let ad ← base64OfJson (← d.orDefault "arbitrarydata" (.str []))
  return { nonce := n, mintFulfillment := some f, coinOutputs := co, minerFees := mf, data := ad }

/-! ## 3Bot -/

/-- `output['refundcoinoutput'] = …` if there is one. -/
def refundField (H : Bytes → Bytes) : Option CoinOutput → List (String × Json)
  | none => []
  | some co => [("refundcoinoutput", co.json H)]

/-- `output[k] = [x.json() for x in l]` if there are any. -/
def listField? {α : Type} (k : String) (f : α → Json) (l : List α) : List (String × Json) :=
  if l.isEmpty then [] else [(k, .arr (l.map f))]

/-- `NetworkAddress.json()` and `BotName.json()` as JSON values. -/
def netJson (L : IpLib) (a : NetAddr) : Json := .str (a.json L)
@[inherit_doc netJson] def nameJson (n : BotName) : Json := .str n.value

/-- types/transactions/ThreeBot.py:403-421; without a key or a signature `None.json()`. -/
def TxV144.jsonFields (L : IpLib) (H : Bytes → Bytes) (t : TxV144) : Res (List (String × Json)) :=
  match t.key, t.sig with
  | some k, some s => .ok ([("nrofmonths", .int t.months), ("txfee", .str (feeOr t.fee).json),
      ("coininputs", .arr (t.coinInputs.map CoinInput.json)),
      ("identification", .obj [("publickey", .str k.str), ("signature", .str s.str)])] ++
      listField? "addresses" (netJson L) t.addresses ++ listField? "names" nameJson t.names ++ refundField H t.refund)
  | _, _ => .error .attributeError

/-- `d[k] in (None, {})`. -/
def Json.isNullOrEmpty : Json → Bool
  | .null => true
  | .obj [] => true
  | _ => false

/-- types/transactions/ThreeBot.py:382-401. -/
def TxV144.ofJson (L : IpLib) (H : Bytes → Bytes) (d : Json) : Res TxV144 := do
  let ad ← (← d.listField "addresses").mapM (NetAddr.fromJson L)
  let nm ← (← d.listField "names").mapM BotName.fromJson
  let m ← intField d "nrofmonths"
  let fee ← optField d "txfee" currencyOfJson
  let ci ← (← d.listField "coininputs").mapM CoinInput.fromJson
  let r ← optField d "refundcoinoutput" (CoinOutput.fromJson H)
  let id ← d.getD "identification" .null
  if id.isNullOrEmpty then
    return { addresses := ad, names := nm, months := m, fee := fee, coinInputs := ci, refund := r }
  else
    let k ← PublicKey.fromJson (← id.idx "publickey")
    let s ← Signature.fromJson (← id.idx "signature") true
    return { addresses := ad, names := nm, months := m, fee := fee, coinInputs := ci, refund := r, key := some k, sig := some s }

/-- types/transactions/ThreeBot.py:830-858: a dict with the non-empty ones of `add` and `remove`, if any. -/
def addRemoveField {α : Type} (k : String) (f : α → Json) (add rem : List α) : List (String × Json) :=
  match listField? "add" f add ++ listField? "remove" f rem with
  | [] => []
  | l => [(k, .obj l)]

/-- types/transactions/ThreeBot.py:821-863. -/
def TxV145.jsonFields (L : IpLib) (H : Bytes → Bytes) (t : TxV145) : List (String × Json) :=
  [("id", .int (t.botid.getD 0)), ("nrofmonths", .int t.months), ("txfee", .str (feeOr t.fee).json),
   ("coininputs", .arr (t.coinInputs.map CoinInput.json)), ("signature", .str (sigOr t.sig).str)] ++
  addRemoveField "addresses" (netJson L) t.addrsAdd t.addrsRemove ++ addRemoveField "names" nameJson t.namesAdd t.namesRemove ++
  refundField H t.refund

/-- types/transactions/ThreeBot.py:803-819. The signature is decoded without `as_array` (line 819). -/
def TxV145.ofJson (L : IpLib) (H : Bytes → Bytes) (d : Json) : Res TxV145 := do
  let id ← intField d "id"
  let a ← d.orDefault "addresses" (.obj [])
  let aa ← (← a.listField "add").mapM (NetAddr.fromJson L)
  let ar ← (← a.listField "remove").mapM (NetAddr.fromJson L)
  let n ← d.orDefault "names" (.obj [])
  let na ← (← n.listField "add").mapM BotName.fromJson
  let nr ← (← n.listField "remove").mapM BotName.fromJson
  let m ← intField d "nrofmonths"
  let fee ← optField d "txfee" currencyOfJson
  let ci ← (← d.listField "coininputs").mapM CoinInput.fromJson
  let r ← optField d "refundcoinoutput" (CoinOutput.fromJson H)
  let s ← Signature.fromJson (← d.orDefault "signature" .null) false
  return { botid := some id, addrsAdd := aa, addrsRemove := ar, namesAdd := na, namesRemove := nr, months := m, fee := fee,
           coinInputs := ci, refund := r, sig := some s }

/-- types/transactions/ThreeBot.py:1218-1234; iterating over `None` inputs raises `TypeError`. -/
def TxV146.jsonFields (H : Bytes → Bytes) (t : TxV146) : Res (List (String × Json)) :=
  match t.coinInputs with
  | none => .error .typeError
  | some ins => .ok ([("sender", .obj [("id", .int (t.sender.getD 0)), ("signature", .str (sigOr t.senderSig).str)]),
      ("receiver", .obj [("id", .int (t.receiver.getD 0)), ("signature", .str (sigOr t.receiverSig).str)]),
      ("names", .arr (t.names.map nameJson)), ("txfee", .str (feeOr t.fee).json), ("coininputs", .arr (ins.map CoinInput.json))] ++
      refundField H t.refund)

/-- types/transactions/ThreeBot.py:1187-1202: the id and signature of one party. -/
def partyOfJson (x : Json) : Res (Int × Signature) := do
  let id ← intField x "id"
  let s ← Signature.fromJson (← x.orDefault "signature" .null) false
  return (id, s)

/-- types/transactions/ThreeBot.py:1185-1216. -/
def TxV146.ofJson (H : Bytes → Bytes) (d : Json) : Res TxV146 := do
  let s ← optField d "sender" partyOfJson
  let r ← optField d "receiver" partyOfJson
  let nm ← (← d.listField "names").mapM BotName.fromJson
  let fee ← optField d "txfee" currencyOfJson
  let ci ← (← d.listField "coininputs").mapM CoinInput.fromJson
  let ref ← optField d "refundcoinoutput" (CoinOutput.fromJson H)
  return { sender := s.map (·.1), receiver := r.map (·.1), names := nm, fee := fee, coinInputs := some ci, refund := ref,
           senderSig := s.map (·.2), receiverSig := r.map (·.2) }

/-! ## ERC20 -/

/-- types/transactions/ERC20.py:218-227. -/
def TxV208.jsonFields (H : Bytes → Bytes) (t : TxV208) : List (String × Json) :=
  [("address", .str (erc20Str t.address)), ("value", .str t.value.json), ("coininputs", .arr (t.coinInputs.map CoinInput.json)),
   ("txfee", .str (feeOr t.fee).json)] ++ refundField H t.refund

/-- types/transactions/ERC20.py:192-216. -/
def TxV208.ofJson (H : Bytes → Bytes) (d : Json) : Res TxV208 := do
  let a ← optField d "address" (erc20FromJson 20)
  let v ← optField d "value" currencyOfJson
  let fee ← optField d "txfee" currencyOfJson
  let ci ← (← d.listField "coininputs").mapM CoinInput.fromJson
  let r ← optField d "refundcoinoutput" (CoinOutput.fromJson H)
  return { address := a.getD [], value := v.getD ⟨none⟩, fee := fee, coinInputs := ci, refund := r }

/-- types/transactions/ERC20.py:397-404. -/
def TxV209.jsonFields (H : Bytes → Bytes) (t : TxV209) : List (String × Json) :=
  [("address", .str (t.address.str H)), ("value", .str t.value.json), ("txfee", .str (feeOr t.fee).json),
   ("blockid", .str (erc20Str t.blockId)), ("txid", .str (erc20Str t.txId))]

/-- types/transactions/ERC20.py:370-395. -/
def TxV209.ofJson (H : Bytes → Bytes) (d : Json) : Res TxV209 := do
  let a ← optField d "address" (UnlockHash.fromJson H)
  let v ← optField d "value" currencyOfJson
  let fee ← optField d "txfee" currencyOfJson
  let b ← optField d "blockid" (erc20FromJson 32)
  let i ← optField d "txid" (erc20FromJson 32)
  return { address := a.getD .default, value := v.getD ⟨none⟩, fee := fee, blockId := b.getD [], txId := i.getD [] }

/-- types/transactions/ERC20.py:650-664. -/
def TxV210.jsonFields (H : Bytes → Bytes) (t : TxV210) : Res (List (String × Json)) := do
  let u ← (keyOr t.key).unlockhash H
  let e ← erc20OfUnlockHash H u
  match t.coinInputs with
  | none => throw .typeError
  | some ins => return [("pubkey", .str (keyOr t.key).str), ("tftaddress", .str (u.str H)), ("erc20address", .str (erc20Str e)),
      ("signature", .str (sigOr t.sig).str), ("regfee", .str registrationFee.json), ("txfee", .str (feeOr t.fee).json),
      ("coininputs", .arr (ins.map CoinInput.json))] ++ refundField H t.refund

/-- types/transactions/ERC20.py:526-532: the registration fee can only be set to what it is. -/
def setRegistrationFee (c : Currency) : Res Unit := if c.eqv registrationFee then .ok () else .error .valueError

/-- types/transactions/ERC20.py:619-648. The signature is decoded without `as_array` (line 627). -/
def TxV210.ofJson (H : Bytes → Bytes) (d : Json) : Res TxV210 := do
  let k ← optField d "pubkey" PublicKey.fromJson
  let s ← optField d "signature" (Signature.fromJson · false)
  let _ ← optField d "regfee" fun x => do setRegistrationFee (← currencyOfJson x)
  let fee ← optField d "txfee" currencyOfJson
  let ci ← (← d.listField "coininputs").mapM CoinInput.fromJson
  let r ← optField d "refundcoinoutput" (CoinOutput.fromJson H)
  return { key := k, sig := s, fee := fee, coinInputs := some ci, refund := r }

/-! ## All versions -/

/-- The `_json_data_object` methods: the items of the dict. -/
def Tx.jsonFields (L : IpLib) (H : Bytes → Bytes) : Tx → Res (List (String × Json))
  | .v1 t => .ok (t.jsonFields H)
  | .v128 t => .ok (t.jsonFields H)
  | .v129 t => .ok (t.jsonFields H)
  | .v144 t => t.jsonFields L H
  | .v145 t => .ok (t.jsonFields L H)
  | .v146 t => t.jsonFields H
  | .v208 t => .ok (t.jsonFields H)
  | .v209 t => .ok (t.jsonFields H)
  | .v210 t => t.jsonFields H

/-- types/transactions/Base.py:196-202 `json`. -/
def Tx.json (L : IpLib) (H : Bytes → Bytes) (t : Tx) : Res Json := do
  let fields ← t.jsonFields L H
  return .obj ([("version", .ver t.version)] ++ if fields.isEmpty then [] else [("data", .obj fields)])

/-- types/transactions/Base.py:52-63 and Transactions.py:66-106 `from_json` on a decoded value; the final `txn.id = id`
is `readTx`. A version that is no known number raises `UnknownTransansactionVersion`. -/
def Tx.fromJson (L : IpLib) (H : Bytes → Bytes) (j : Json) : Res Tx :=
  match j with
  | .obj _ => do
    let v ← j.getD "version" (.int (-1))
    match v.asInt? with
    | some 1 => return .v1 (← TxV1.ofJson H (← j.getD "data" (.obj [])))
    | some 144 => return .v144 (← TxV144.ofJson L H (← j.getD "data" (.obj [])))
    | some 145 => return .v145 (← TxV145.ofJson L H (← j.getD "data" (.obj [])))
    | some 146 => return .v146 (← TxV146.ofJson H (← j.getD "data" (.obj [])))
    | some 208 => return .v208 (← TxV208.ofJson H (← j.getD "data" (.obj [])))
    | some 209 => return .v209 (← TxV209.ofJson H (← j.getD "data" (.obj [])))
    | some 210 => return .v210 (← TxV210.ofJson H (← j.getD "data" (.obj [])))
    | some 128 => return .v128 (← TxV128.ofJson H (← j.getD "data" (.obj [])))
    | some 129 => return .v129 (← TxV129.ofJson H (← j.getD "data" (.obj [])))
    | some 0 => return .v1 (← TxV1.legacyOfJson H j)
    | _ => throw .unknownTransactionVersion
  | _ => .error .typeError

/-- types/transactions/Transactions.py:64-103 `from_json(obj, id)` with the id setter of Base.py:95-99: the transaction and its `_id`. -/
def readTx (L : IpLib) (H : Bytes → Bytes) (j : Json) (id : BVal) : Res (Tx × Option Hash) := do
  let t ← Tx.fromJson L H j
  return (t, some (← Hash.new id))

/-- types/transactions/Base.py:88-93 the `id` property: `str(None)` when there is none. -/
def txIdText : Option Hash → Str
  | none => "None".toList
  | some h => h.str

end TF
