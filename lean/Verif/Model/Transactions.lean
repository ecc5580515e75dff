import Verif.Model.IO
import Verif.Model.ThreeBot
/-!
# types/transactions/*.py

One structure per transaction class, and `Tx`, their sum. `L` is the `ipaddress` library, `H` blake2b-256. Transaction id, height and
the unconfirmed flag (bookkeeping set from outside) are not modelled here. Python shares fulfillment objects between inputs that were
built from one another; here every input has its own.
-/
namespace TF

/-- Consecutive encoder calls. -/
def seqOut : List Out → Out
  | [] => .ok []
  | o :: os => o.andThen (seqOut os)

/-- A computation that may raise before the encoder is called. -/
def Out.ofRes {α : Type} (r : Res α) (f : α → Out) : Out :=
  match r with
  | .ok a => f a
  | .error e => .raise e

/-! ## The transaction classes -/

/-- types/transactions/Standard.py:7-20. `data` is `None` or a base64 `BinaryData` of variable length; both are given by the bytes. -/
structure TxV1 where
  coinInputs : List CoinInput := []
  coinOutputs : List CoinOutput := []
  stakeInputs : List StakeInput := []
  stakeOutputs : List StakeOutput := []
  minerFees : List Currency := []
  data : Bytes := []
  legacy : Bool := false
  deriving DecidableEq, Repr

/-- types/transactions/Minting.py:11-24. A `None` mint condition is `ConditionNil` (62-69). The random initial nonce is a parameter. -/
structure TxV128 where
  nonce : Bytes
  mintFulfillment : Option Fulfillment := none
  mintCondition : Condition := .nil
  minerFees : List Currency := []
  data : Bytes := []
  parent : Option Condition := none
  deriving DecidableEq, Repr

/-- types/transactions/Minting.py:203-216. -/
structure TxV129 where
  nonce : Bytes
  mintFulfillment : Option Fulfillment := none
  coinOutputs : List CoinOutput := []
  minerFees : List Currency := []
  data : Bytes := []
  parent : Option Condition := none
  deriving DecidableEq, Repr

/-- types/transactions/ThreeBot.py:102-115. -/
structure TxV144 where
  addresses : List NetAddr := []
  names : List BotName := []
  months : Int := 0
  fee : Option Currency := none
  coinInputs : List CoinInput := []
  refund : Option CoinOutput := none
  key : Option PublicKey := none
  sig : Option Signature := none
  deriving DecidableEq, Repr

/-- types/transactions/ThreeBot.py:442-458. -/
structure TxV145 where
  botid : Option Int := none
  addrsAdd : List NetAddr := []
  addrsRemove : List NetAddr := []
  namesAdd : List BotName := []
  namesRemove : List BotName := []
  months : Int := 0
  fee : Option Currency := none
  coinInputs : List CoinInput := []
  refund : Option CoinOutput := none
  sig : Option Signature := none
  parentKey : Option PublicKey := none
  deriving DecidableEq, Repr

/-- types/transactions/ThreeBot.py:884-899. The coin inputs start as `None`. -/
structure TxV146 where
  sender : Option Int := none
  receiver : Option Int := none
  names : List BotName := []
  fee : Option Currency := none
  coinInputs : Option (List CoinInput) := none
  refund : Option CoinOutput := none
  senderSig : Option Signature := none
  receiverSig : Option Signature := none
  senderKey : Option PublicKey := none
  receiverKey : Option PublicKey := none
  deriving DecidableEq, Repr

/-- types/transactions/ERC20.py:12-22. `None` address / value are indistinguishable from the empty ones (28-32, 41-45). -/
structure TxV208 where
  address : Bytes := []
  value : Currency := ⟨none⟩
  fee : Option Currency := none
  coinInputs : List CoinInput := []
  refund : Option CoinOutput := none
  deriving DecidableEq, Repr

/-- types/transactions/ERC20.py:230-240. -/
structure TxV209 where
  address : UnlockHash := .default
  value : Currency := ⟨none⟩
  fee : Option Currency := none
  blockId : Bytes := []
  txId : Bytes := []
  deriving DecidableEq, Repr

/-- types/transactions/ERC20.py:407-423. The coin inputs start as `None`; the registration fee is fixed (526-532). -/
structure TxV210 where
  key : Option PublicKey := none
  sig : Option Signature := none
  fee : Option Currency := none
  coinInputs : Option (List CoinInput) := none
  refund : Option CoinOutput := none
  deriving DecidableEq, Repr

/-- Any transaction. -/
inductive Tx
  | v1 (t : TxV1)
  | v128 (t : TxV128)
  | v129 (t : TxV129)
  | v144 (t : TxV144)
  | v145 (t : TxV145)
  | v146 (t : TxV146)
  | v208 (t : TxV208)
  | v209 (t : TxV209)
  | v210 (t : TxV210)
  deriving DecidableEq, Repr

/-- types/transactions/Base.py:29-40 and the `version` properties. -/
def Tx.version : Tx → Nat
  | .v1 _ => 1
  | .v128 _ => 128
  | .v129 _ => 129
  | .v144 _ => 144
  | .v145 _ => 145
  | .v146 _ => 146
  | .v208 _ => 208
  | .v209 _ => 209
  | .v210 _ => 210

/-- types/transactions/ERC20.py:410, 417-418: `Currency('10 TFT')`. -/
def registrationFee : Currency := ⟨some ⟨false, 10, 0⟩⟩

/-- The `coin_inputs` properties; `none` is Python's `None` (ThreeBot.py:950, ERC20.py:465). -/
def Tx.coinInputs : Tx → Option (List CoinInput)
  | .v1 t => some t.coinInputs
  | .v128 _ => some []
  | .v129 _ => some []
  | .v144 t => some t.coinInputs
  | .v145 t => some t.coinInputs
  | .v146 t => t.coinInputs
  | .v208 t => some t.coinInputs
  | .v209 _ => some []
  | .v210 t => t.coinInputs

/-- The `coin_outputs` properties (Standard.py:126-132, Minting.py:254-260, ThreeBot.py:159-166, ERC20.py:77-84, 320-326). -/
def Tx.coinOutputs : Tx → List CoinOutput
  | .v1 t => t.coinOutputs
  | .v128 _ => []
  | .v129 t => t.coinOutputs
  | .v144 t => t.refund.toList
  | .v145 t => t.refund.toList
  | .v146 t => t.refund.toList
  | .v208 t => t.refund.toList
  | .v209 t => [⟨t.value, .unlockHash t.address, ⟨[]⟩⟩]
  | .v210 t => t.refund.toList

/-- The `blockstake_inputs` / `blockstake_outputs` properties (Base.py:143-157, Standard.py:152-173). -/
def Tx.stakeInputs : Tx → List StakeInput
  | .v1 t => t.stakeInputs
  | _ => []
@[inherit_doc Tx.stakeInputs] def Tx.stakeOutputs : Tx → List StakeOutput
  | .v1 t => t.stakeOutputs
  | _ => []

/-- The `miner_fees` properties. -/
def Tx.minerFees : Tx → List Currency
  | .v1 t => t.minerFees
  | .v128 t => t.minerFees
  | .v129 t => t.minerFees
  | .v144 t => t.fee.toList
  | .v145 t => t.fee.toList
  | .v146 t => t.fee.toList
  | .v208 t => t.fee.toList
  | .v209 t => t.fee.toList
  | .v210 t => t.fee.toList

/-! ## Signature hash inputs -/

/-- `BinaryData` of variable length as a value given to an encoder. -/
def dataVal (b : Bytes) : Val := .obj (siaSliceBytes b) (rivSliceBytes b)

/-- Standard.py:241-245: the number of inputs and their parent ids. -/
def idsSia (ids : List Hash) : Out := (siaInt ids.length).andThen (siaAddSeq (ids.map Hash.val))
/-- ThreeBot.py:321-324 and elsewhere: the same with the rivine encoder (`add(int)` is an 8-byte integer). -/
def idsRiv (ids : List Hash) : Out := (rivInt64 ids.length).andThen (rivAddSeq (ids.map Hash.val))

/-- ThreeBot.py:329-334 and elsewhere: the refund output, preceded by a flag. -/
def refundRiv : Option CoinOutput → Out
  | none => rivInt8 0
  | some co => (rivInt8 1).andThen (rivAdd co.val)

/-- `len(self.coin_inputs)` / iteration when the inputs may be `None`: `TypeError`. -/
def insOrRaise (ins : Option (List CoinInput)) (f : List CoinInput → Out) : Out :=
  match ins with
  | none => .raise .typeError
  | some l => f l

/-- ED25519 signature and key getters (ThreeBot.py:269-285 and elsewhere). -/
def sigOr (s : Option Signature) : Signature := s.getD ⟨[], true⟩
@[inherit_doc sigOr] def keyOr (k : Option PublicKey) : PublicKey := k.getD .default
/-- `transaction_fee` getters (ThreeBot.py:241-245 and elsewhere). -/
def feeOr (c : Option Currency) : Currency := c.getD ⟨none⟩

/-- `f.public_key` where `f` is a fulfillment (Standard.py:277): a multi-signature fulfillment has no such attribute. -/
def legacyKey : Fulfillment → Res PublicKey
  | .single k _ => .ok k
  | .swap k _ _ => .ok k
  | .multi _ => .error .attributeError

/-- Standard.py:275-277, 284-286. -/
def legacyInput (H : Bytes → Bytes) (p : Hash) (f : Fulfillment) : Out :=
  Out.ofRes (legacyKey f) fun k => Out.ofRes (k.unlockhash H) fun u => siaAddSeq [p.val, u.val]

/-- Standard.py:281-282, 290-291. -/
def legacyOutput (H : Bytes → Bytes) (v : Val) (c : Condition) : Out :=
  Out.ofRes (c.unlockhash H) fun u => siaAddSeq [v, u.val]

/-- types/transactions/Standard.py:268-300. -/
def TxV1.legacySigInput (H : Bytes → Bytes) (t : TxV1) (extras : List Val) : Out := seqOut [
  siaAddSeq extras,
  seqOut (t.coinInputs.map fun ci => legacyInput H ci.parentId ci.fulfillment),
  siaInt t.coinOutputs.length,
  seqOut (t.coinOutputs.map fun co => legacyOutput H co.value.toVal co.condition),
  seqOut (t.stakeInputs.map fun ci => legacyInput H ci.parentId ci.fulfillment),
  siaInt t.stakeOutputs.length,
  seqOut (t.stakeOutputs.map fun co => legacyOutput H co.value.toVal co.condition),
  siaAddSlice (.seq (t.minerFees.map Currency.toVal)),
  siaAdd (dataVal t.data)]

/-- types/transactions/Standard.py:228-266. -/
def TxV1.sigInput (H : Bytes → Bytes) (t : TxV1) (extras : List Val) : Out :=
  if t.legacy then t.legacySigInput H extras else seqOut [
    .ok [1],
    siaAddSeq extras,
    idsSia (t.coinInputs.map (·.parentId)),
    siaAddSlice (.seq (t.coinOutputs.map CoinOutput.val)),
    idsSia (t.stakeInputs.map (·.parentId)),
    siaAddSlice (.seq (t.stakeOutputs.map StakeOutput.val)),
    siaAddSlice (.seq (t.minerFees.map Currency.toVal)),
    siaAdd (dataVal t.data)]

/-- The specifiers: Minting.py:12, 204, ThreeBot.py:103, 443, 885, ERC20.py:13, 231, 408. -/
def specV128 : Bytes := utf8 "minter defin tx\x00".toList
@[inherit_doc specV128] def specV129 : Bytes := utf8 "coin mint tx\x00\x00\x00\x00".toList
@[inherit_doc specV128] def specV144 : Bytes := utf8 "bot register tx\x00".toList
@[inherit_doc specV128] def specV145 : Bytes := utf8 "bot recupdate tx".toList
@[inherit_doc specV128] def specV146 : Bytes := utf8 "bot nametrans tx".toList
@[inherit_doc specV128] def specV208 : Bytes := utf8 "erc20 convert tx".toList
@[inherit_doc specV128] def specV209 : Bytes := utf8 "erc20 coingen tx".toList
@[inherit_doc specV128] def specV210 : Bytes := utf8 "erc20 addrreg tx".toList

/-- types/transactions/Minting.py:125-151. -/
def TxV128.sigInput (t : TxV128) (extras : List Val) : Out := seqOut [
  .ok [128], .ok specV128, .ok t.nonce, siaAddSeq extras,
  siaAdd t.mintCondition.val,
  siaAddSlice (.seq (t.minerFees.map Currency.toVal)),
  siaAdd (dataVal t.data)]

/-- types/transactions/Minting.py:319-345. -/
def TxV129.sigInput (t : TxV129) (extras : List Val) : Out := seqOut [
  .ok [129], .ok specV129, .ok t.nonce, siaAddSeq extras,
  siaAddSlice (.seq (t.coinOutputs.map CoinOutput.val)),
  siaAddSlice (.seq (t.minerFees.map Currency.toVal)),
  siaAdd (dataVal t.data)]

/-- types/transactions/ThreeBot.py:304-340. -/
def TxV144.sigInput (t : TxV144) (extras : List Val) : Out := seqOut [
  rivInt8 144, .ok specV144, rivAddSeq extras,
  rivAddSeq [.seq (t.addresses.map NetAddr.val), .seq (t.names.map BotName.val)],
  rivInt8 t.months,
  idsRiv (t.coinInputs.map (·.parentId)),
  rivAdd (feeOr t.fee).toVal,
  refundRiv t.refund,
  rivAdd (keyOr t.key).val]

/-- types/transactions/ThreeBot.py:711-748. -/
def TxV145.sigInput (t : TxV145) (extras : List Val) : Out := seqOut [
  rivInt8 145, .ok specV145, rivInt32 (t.botid.getD 0), rivAddSeq extras,
  rivAddSeq [.seq (t.addrsAdd.map NetAddr.val), .seq (t.addrsRemove.map NetAddr.val)],
  rivAddSeq [.seq (t.namesAdd.map BotName.val), .seq (t.namesRemove.map BotName.val)],
  rivInt8 t.months,
  idsRiv (t.coinInputs.map (·.parentId)),
  rivAdd (feeOr t.fee).toVal,
  refundRiv t.refund]

/-- types/transactions/ThreeBot.py:1106-1142. -/
def TxV146.sigInput (t : TxV146) (extras : List Val) : Out := seqOut [
  rivInt8 146, .ok specV146, rivInt32 (t.sender.getD 0), rivInt32 (t.receiver.getD 0), rivAddSeq extras,
  rivAdd (.seq (t.names.map BotName.val)),
  insOrRaise t.coinInputs fun l => idsRiv (l.map (·.parentId)),
  rivAdd (feeOr t.fee).toVal,
  refundRiv t.refund]

/-- types/transactions/ERC20.py:136-168. -/
def TxV208.sigInput (t : TxV208) (extras : List Val) : Out := seqOut [
  rivInt8 208, .ok specV208, rivAddSeq [erc20Val t.address, t.value.toVal], rivAddSeq extras,
  idsRiv (t.coinInputs.map (·.parentId)),
  rivAdd (feeOr t.fee).toVal,
  refundRiv t.refund]

/-- types/transactions/ERC20.py:328-351 (the sia encoder). -/
def TxV209.sigInput (t : TxV209) (extras : List Val) : Out := seqOut [
  .ok [209], .ok specV209, siaAddSeq extras,
  siaAddSeq [t.address.val, t.value.toVal],
  siaAddSeq [(feeOr t.fee).toVal],
  siaAddSeq [erc20Val t.blockId, erc20Val t.txId]]

/-- types/transactions/ERC20.py:562-594. -/
def TxV210.sigInput (t : TxV210) (extras : List Val) : Out := seqOut [
  rivInt8 210, .ok specV210, rivAdd (keyOr t.key).val, rivAddSeq extras,
  insOrRaise t.coinInputs fun l => idsRiv (l.map (·.parentId)),
  rivAddSeq [registrationFee.toVal, (feeOr t.fee).toVal],
  refundRiv t.refund]

/-- `_signature_hash_input_get(*extra_objects)`: the bytes whose blake2b digest is signed (Base.py:179-186). -/
def Tx.sigInput (H : Bytes → Bytes) (t : Tx) (extras : List Val) : Res Bytes :=
  (match t with
    | .v1 t => t.sigInput H extras
    | .v128 t => t.sigInput extras
    | .v129 t => t.sigInput extras
    | .v144 t => t.sigInput extras
    | .v145 t => t.sigInput extras
    | .v146 t => t.sigInput extras
    | .v208 t => t.sigInput extras
    | .v209 t => t.sigInput extras
    | .v210 t => t.sigInput extras : Out).toRes

/-- Base.py:179-186 `signature_hash_get`. -/
def Tx.sigHash (H : Bytes → Bytes) (t : Tx) (extras : List Val) : Res Bytes := do return H (← t.sigInput H extras)

/-! ## Signing -/

/-- Where a signature goes: a coin input, a blockstake input, the mint fulfillment, or the transaction itself (the request being
made with the given specifier: ThreeBot.py:24-25, 430, 1238-1242, ERC20.py:411-412, 674). -/
inductive SigTarget
  | coin (i : Nat)
  | stake (i : Nat)
  | mint
  | self (specifier : Bytes)
  deriving DecidableEq, Repr

/-- b'sender', b'receiver', b'registration'. -/
def specSender : Bytes := utf8 "sender".toList
@[inherit_doc specSender] def specReceiver : Bytes := utf8 "receiver".toList
@[inherit_doc specSender] def specRegistration : Bytes := utf8 "registration".toList

/-- One open signature request of a transaction. -/
structure TxRequest where
  target : SigTarget
  req : Request
  deriving DecidableEq, Repr

/-- A request of the transaction itself for the key `k`, unless the key is unknown or the signature is there
(ThreeBot.py:423-437, 865-880, 1248-1263, ERC20.py:666-682). -/
def selfRequest (H : Bytes → Bytes) (k : Option PublicKey) (s : Option Signature) (spec : Bytes) : Res (List TxRequest) :=
  match k, s with
  | none, _ => .ok []
  | some _, some _ => .ok []
  | some k, none => do
    let u ← k.unlockhash H
    return [⟨.self spec, { owner := u }⟩]

/-- Minting.py:188-195, 382-389: with a parent condition but no mint fulfillment, `None.signature_requests_new`. -/
def mintRequests (H : Bytes → Bytes) (f : Option Fulfillment) (parent : Option Condition) : Res (List TxRequest) :=
  match parent, f with
  | none, _ => .ok []
  | some _, none => .error .attributeError
  | some c, some f => do
    let rs ← f.requests H c
    return rs.map fun r => ⟨.mint, r⟩

/-- The `_extra_signature_requests_new` methods. -/
def Tx.extraRequests (H : Bytes → Bytes) : Tx → Res (List TxRequest)
  | .v128 t => mintRequests H t.mintFulfillment t.parent
  | .v129 t => mintRequests H t.mintFulfillment t.parent
  | .v144 t => selfRequest H t.key t.sig specSender
  | .v145 t => selfRequest H t.parentKey t.sig specSender
  | .v146 t => do
    let a ← selfRequest H t.senderKey t.senderSig specSender
    let b ← selfRequest H t.receiverKey t.receiverSig specReceiver
    return a ++ b
  | .v210 t => selfRequest H t.key t.sig specRegistration
  | _ => .ok []

/-- Base.py:278-286: the requests of the inputs, numbered from `i`. -/
def coinRequests (H : Bytes → Bytes) : Nat → List CoinInput → Res (List TxRequest)
  | _, [] => .ok []
  | i, ci :: l => do
    let rs ← ci.requests H
    let rest ← coinRequests H (i+1) l
    return rs.map (fun r => ⟨.coin i, r⟩) ++ rest
@[inherit_doc coinRequests]
def stakeRequests (H : Bytes → Bytes) : Nat → List StakeInput → Res (List TxRequest)
  | _, [] => .ok []
  | i, ci :: l => do
    let rs ← ci.requests H
    let rest ← stakeRequests H (i+1) l
    return rs.map (fun r => ⟨.stake i, r⟩) ++ rest

/-- types/transactions/Base.py:273-286 `signature_requests_new`. -/
def Tx.requests (H : Bytes → Bytes) (t : Tx) : Res (List TxRequest) := do
  let ins ← match t.coinInputs with
    | none => .error .typeError
    | some l => coinRequests H 0 l
  let stakes ← stakeRequests H 0 t.stakeInputs
  let extra ← t.extraRequests H
  return ins ++ stakes ++ extra

/-- Base.py:278-283, 312-329 with FulfillmentTypes.py:312, 387, 559-562: the bytes whose digest a signer with key `pk` signs for a
target: the extra objects are the index of the input (an int, for coin and blockstake inputs alike) or the specifier, followed by what
the fulfillment adds. -/
def Tx.preimage (H : Bytes → Bytes) (t : Tx) (tgt : SigTarget) (pk : PublicKey) : Res Bytes :=
  match tgt with
  | .coin i => match t.coinInputs with
    | some l => match l[i]? with
      | some ci => t.sigInput H (.int i :: ci.fulfillment.hashExtras pk)
      | none => .error .indexError
    | none => .error .typeError
  | .stake i => match t.stakeInputs[i]? with
    | some ci => t.sigInput H (.int i :: ci.fulfillment.hashExtras pk)
    | none => .error .indexError
  | .mint => match t with
    | .v128 m => match m.mintFulfillment with
      | some f => t.sigInput H (f.hashExtras pk)
      | none => .error .attributeError
    | .v129 m => match m.mintFulfillment with
      | some f => t.sigInput H (f.hashExtras pk)
      | none => .error .attributeError
    | _ => .error .attributeError
  | .self spec => t.sigInput H [.obj (.ok spec) (.ok spec)]

/-- The `signature` setters of the transactions (ThreeBot.py:274-279, 681-686, 1047-1064, ERC20.py:452-457). -/
def setTxSignature : BVal → Res (Option Signature)
  | .none => .ok none
  | v => do return some (← Signature.new v true)

/-- ThreeBot.py:295-302, 702-709, ERC20.py:553-560 `signature_add`: the key must have the address of the expected key. -/
def selfSign (H : Bytes → Bytes) (expected : Option PublicKey) (k : KeyArg) (sig : BVal) : Res (Option Signature) :=
  match expected, k with
  | some e, .key k => do
    let a ← e.unlockhash H
    let b ← k.unlockhash H
    if a ≠ b then throw .valueError
    setTxSignature sig
  | _, _ => .error .attributeError

/-- ThreeBot.py:1094-1104 `signature_add` of a name transfer: routed by the address of the key, sender first. Sets one of the two
signatures. -/
def TxV146.signSelfRes (H : Bytes → Bytes) (t : TxV146) (k : PublicKey) (sig : BVal) : Res TxV146 := do
  let u ← k.unlockhash H
  if u = (← (keyOr t.senderKey).unlockhash H) then
    let s ← setTxSignature sig
    return { t with senderSig := s }
  else if u = (← (keyOr t.receiverKey).unlockhash H) then
    let s ← setTxSignature sig
    return { t with receiverSig := s }
  else throw .valueError
@[inherit_doc TxV146.signSelfRes]
def TxV146.signSelf (H : Bytes → Bytes) (t : TxV146) (k : KeyArg) (sig : BVal) : TxV146 × Option Err :=
  match k with
  | .key k => match t.signSelfRes H k sig with
    | .ok t' => (t', none)
    | .error e => (t, some e)
  | _ => (t, some .attributeError)

/-- Modify the `i`-th element by a function that also reports an exception. -/
def modifyAt {α : Type} (l : List α) (i : Nat) (f : α → α × Option Err) : List α × Option Err :=
  match l[i]? with
  | none => (l, some .indexError)
  | some a => let r := f a; (l.set i r.1, r.2)

/-- A signature arriving at a coin input. -/
def CoinInput.sign (ci : CoinInput) (k : KeyArg) (sig : BVal) : CoinInput × Option Err :=
  let r := ci.fulfillment.signatureAdd k sig
  ({ ci with fulfillment := r.1 }, r.2)
/-- A signature arriving at a blockstake input. -/
def StakeInput.sign (ci : StakeInput) (k : KeyArg) (sig : BVal) : StakeInput × Option Err :=
  let r := ci.fulfillment.signatureAdd k sig
  ({ ci with fulfillment := r.1 }, r.2)

/-- A signature arriving at a mint fulfillment. -/
def signMint (f : Option Fulfillment) (k : KeyArg) (sig : BVal) : Option Fulfillment × Option Err :=
  match f with
  | none => (none, some .attributeError)
  | some f => let r := f.signatureAdd k sig; (some r.1, r.2)

/-- The effect of the `signature_add` callback of a request for a target: the transaction afterwards and the exception, if any.
(Targets a class does not have raise.) -/
def Tx.sign (H : Bytes → Bytes) (t : Tx) (tgt : SigTarget) (k : KeyArg) (sig : BVal) : Tx × Option Err :=
  match tgt, t with
  | .coin i, .v1 t => let r := modifyAt t.coinInputs i (·.sign k sig); (.v1 { t with coinInputs := r.1 }, r.2)
  | .coin i, .v144 t => let r := modifyAt t.coinInputs i (·.sign k sig); (.v144 { t with coinInputs := r.1 }, r.2)
  | .coin i, .v145 t => let r := modifyAt t.coinInputs i (·.sign k sig); (.v145 { t with coinInputs := r.1 }, r.2)
  | .coin i, .v146 t => match t.coinInputs with
    | none => (.v146 t, some .typeError)
    | some l => let r := modifyAt l i (·.sign k sig); (.v146 { t with coinInputs := some r.1 }, r.2)
  | .coin i, .v208 t => let r := modifyAt t.coinInputs i (·.sign k sig); (.v208 { t with coinInputs := r.1 }, r.2)
  | .coin i, .v210 t => match t.coinInputs with
    | none => (.v210 t, some .typeError)
    | some l => let r := modifyAt l i (·.sign k sig); (.v210 { t with coinInputs := some r.1 }, r.2)
  | .stake i, .v1 t => let r := modifyAt t.stakeInputs i (·.sign k sig); (.v1 { t with stakeInputs := r.1 }, r.2)
  | .mint, .v128 t => let r := signMint t.mintFulfillment k sig; (.v128 { t with mintFulfillment := r.1 }, r.2)
  | .mint, .v129 t => let r := signMint t.mintFulfillment k sig; (.v129 { t with mintFulfillment := r.1 }, r.2)
  | .self _, .v144 t => match selfSign H t.key k sig with
    | .ok s => (.v144 { t with sig := s }, none)
    | .error e => (.v144 t, some e)
  | .self _, .v145 t => match selfSign H t.parentKey k sig with
    | .ok s => (.v145 { t with sig := s }, none)
    | .error e => (.v145 t, some e)
  | .self _, .v146 t => let r := t.signSelf H k sig; (.v146 r.1, r.2)
  | .self _, .v210 t => match selfSign H t.key k sig with
    | .ok s => (.v210 { t with sig := s }, none)
    | .error e => (.v210 t, some e)
  | _, t => (t, some .attributeError)

/-- Minting.py:197-200, 391-394. -/
def mintFulfilled (f : Option Fulfillment) (parent : Option Condition) : Res Bool :=
  match parent with
  | none => .ok false
  | some c => (f.getD (.single .default none)).isFulfilled c

/-- The `_extra_is_fulfilled` methods. -/
def Tx.extraFulfilled : Tx → Res Bool
  | .v128 t => mintFulfilled t.mintFulfillment t.parent
  | .v129 t => mintFulfilled t.mintFulfillment t.parent
  | .v144 t => .ok t.sig.isSome
  | .v145 t => .ok t.sig.isSome
  | .v146 t => .ok (t.senderSig.isSome && t.receiverSig.isSome)
  | .v210 t => .ok t.sig.isSome
  | _ => .ok true

/-- Base.py:300-302: `reduce(lambda r, ci: r and ci.is_fulfilled(), inputs, start)`. -/
def reduceFulfilled : Bool → List CoinInput → Res Bool
  | r, [] => .ok r
  | false, _ :: l => reduceFulfilled false l
  | true, ci :: l => do reduceFulfilled (← ci.isFulfilled) l

/-- types/transactions/Base.py:293-302 `is_fulfilled`: the coin inputs and the extra fulfillments, not the blockstake inputs. -/
def Tx.isFulfilled (t : Tx) : Res Bool := do
  let e ← t.extraFulfilled
  match t.coinInputs with
  | none => .error .typeError
  | some l => reduceFulfilled e l

/-! ## Binary encoding and identifiers -/

/-- Standard.py:363-369, 376-382: an input of a legacy transaction. -/
def legacyInputBinary (p : Hash) (f : Fulfillment) : Out :=
  Out.ofRes (legacyKey f) fun k =>
    let s : Signature := match f with
      | .single _ s => s.getD .default
      | .swap _ s _ => s.getD .default
      | .multi _ => .default
    seqOut [siaAdd p.val, .ok [1], Out.nested (siaAdd k.val) siaSliceBytes, siaAdd s.val]

/-- types/transactions/Standard.py:355-389 and Base.py:257-271. -/
def TxV1.binaryData (H : Bytes → Bytes) (t : TxV1) : Out :=
  if t.legacy then seqOut [
    siaInt t.coinInputs.length,
    seqOut (t.coinInputs.map fun ci => legacyInputBinary ci.parentId ci.fulfillment),
    siaInt t.coinOutputs.length,
    seqOut (t.coinOutputs.map fun co => legacyOutput H co.value.toVal co.condition),
    siaInt t.stakeInputs.length,
    seqOut (t.stakeInputs.map fun ci => legacyInputBinary ci.parentId ci.fulfillment),
    siaInt t.stakeOutputs.length,
    seqOut (t.stakeOutputs.map fun co => legacyOutput H co.value.toVal co.condition),
    siaAddSeq [.seq (t.minerFees.map Currency.toVal), dataVal t.data]]
  else siaAddSeq [
    .seq (t.coinInputs.map CoinInput.val), .seq (t.coinOutputs.map CoinOutput.val),
    .seq (t.stakeInputs.map StakeInput.val), .seq (t.stakeOutputs.map StakeOutput.val),
    .seq (t.minerFees.map Currency.toVal), dataVal t.data]

/-- types/transactions/Minting.py:156-165. -/
def TxV128.binaryData (t : TxV128) : Out := seqOut [
  .ok t.nonce,
  siaAddSeq [(t.mintFulfillment.getD (.single .default none)).val, t.mintCondition.val,
    .seq (t.minerFees.map Currency.toVal), dataVal t.data]]

/-- types/transactions/Minting.py:350-359. -/
def TxV129.binaryData (t : TxV129) : Out := seqOut [
  .ok t.nonce,
  siaAddSeq [(t.mintFulfillment.getD (.single .default none)).val, .seq (t.coinOutputs.map CoinOutput.val),
    .seq (t.minerFees.map Currency.toVal), dataVal t.data]]

/-- types/transactions/ThreeBot.py:48-61, 88-99: `BotMonthsAndFlagsData` added to a rivine encoder; its constructor refuses months
outside `[0, 24]`. -/
def monthsAndFlags (months : Int) (hasAddresses hasNames hasRefund : Bool) : Out :=
  if months < 0 ∨ months > 24 then .raise .typeError
  else
    let flag := months.toNat
    let flag := if hasAddresses then flag ||| 32 else flag
    let flag := if hasNames then flag ||| 64 else flag
    let flag := if hasRefund then flag ||| 128 else flag
    rivInt8 (flag : Nat)

/-- ThreeBot.py:363, 780, 786: two counts packed in one byte. -/
def packedCounts (a b : Nat) : Out := rivInt8 ((a ||| (b <<< 4) : Nat) : Int)

/-- ThreeBot.py:372-374, 793-795, 1178-1180: the refund output without a flag. -/
def refundOnly : Option CoinOutput → Out
  | none => .ok []
  | some co => rivAdd co.val

/-- types/transactions/ThreeBot.py:345-380. -/
def TxV144.binaryData (t : TxV144) : Out := seqOut [
  monthsAndFlags t.months (!t.addresses.isEmpty) (!t.names.isEmpty) t.refund.isSome,
  packedCounts t.addresses.length t.names.length,
  rivAddSeq (t.addresses.map NetAddr.val), rivAddSeq (t.names.map BotName.val),
  rivAddSeq [(feeOr t.fee).toVal, .seq (t.coinInputs.map CoinInput.val)],
  refundOnly t.refund,
  rivAddSeq [(keyOr t.key).val, (sigOr t.sig).val]]

/-- types/transactions/ThreeBot.py:753-801. -/
def TxV145.binaryData (t : TxV145) : Out := seqOut [
  rivInt32 (t.botid.getD 0),
  monthsAndFlags t.months (!t.addrsAdd.isEmpty || !t.addrsRemove.isEmpty) (!t.namesAdd.isEmpty || !t.namesRemove.isEmpty)
    t.refund.isSome,
  (if !t.addrsAdd.isEmpty || !t.addrsRemove.isEmpty then seqOut [packedCounts t.addrsAdd.length t.addrsRemove.length,
    rivAddSeq (t.addrsAdd.map NetAddr.val), rivAddSeq (t.addrsRemove.map NetAddr.val)] else .ok []),
  (if !t.namesAdd.isEmpty || !t.namesRemove.isEmpty then seqOut [packedCounts t.namesAdd.length t.namesRemove.length,
    rivAddSeq (t.namesAdd.map BotName.val), rivAddSeq (t.namesRemove.map BotName.val)] else .ok []),
  rivAddSeq [(feeOr t.fee).toVal, .seq (t.coinInputs.map CoinInput.val)],
  refundOnly t.refund,
  rivAdd (sigOr t.sig).val]

/-- The inputs as a value given to `add`; `None` is refused with `ValueError`. -/
def insVal : Option (List CoinInput) → Val
  | none => .none
  | some l => .seq (l.map CoinInput.val)

/-- types/transactions/ThreeBot.py:1147-1183. -/
def TxV146.binaryData (t : TxV146) : Out := seqOut [
  rivInt32 (t.sender.getD 0), rivAdd (sigOr t.senderSig).val,
  rivInt32 (t.receiver.getD 0), rivAdd (sigOr t.receiverSig).val,
  rivInt8 (((if t.refund.isSome then t.names.length ||| 16 else t.names.length) : Nat) : Int),
  rivAddSeq (t.names.map BotName.val),
  rivAddSeq [(feeOr t.fee).toVal, insVal t.coinInputs],
  refundOnly t.refund]

/-- types/transactions/ERC20.py:173-190. -/
def TxV208.binaryData (t : TxV208) : Out := seqOut [
  rivAddSeq [erc20Val t.address, t.value.toVal, (feeOr t.fee).toVal, .seq (t.coinInputs.map CoinInput.val)],
  refundRiv t.refund]

/-- types/transactions/ERC20.py:356-368. -/
def TxV209.binaryData (t : TxV209) : Out :=
  rivAddSeq [t.address.val, t.value.toVal, (feeOr t.fee).toVal, erc20Val t.blockId, erc20Val t.txId]

/-- types/transactions/ERC20.py:599-617. -/
def TxV210.binaryData (t : TxV210) : Out := seqOut [
  rivAddSeq [(keyOr t.key).val, (sigOr t.sig).val, registrationFee.toVal, (feeOr t.fee).toVal, insVal t.coinInputs],
  refundRiv t.refund]

/-- The `_binary_encode_data` methods. -/
def Tx.binaryData (H : Bytes → Bytes) : Tx → Out
  | .v1 t => t.binaryData H
  | .v128 t => t.binaryData
  | .v129 t => t.binaryData
  | .v144 t => t.binaryData
  | .v145 t => t.binaryData
  | .v146 t => t.binaryData
  | .v208 t => t.binaryData
  | .v209 t => t.binaryData
  | .v210 t => t.binaryData

/-- types/transactions/Base.py:250-255 and Standard.py:343-353 `binary_encode`. -/
def Tx.binaryEncode (H : Bytes → Bytes) (t : Tx) : Res Bytes :=
  match t with
  | .v1 v => if v.legacy then ((Out.ok [0]).andThen (v.binaryData H)).toRes
    else ((Out.ok [1]).andThen ((v.binaryData H).nested siaSliceBytes)).toRes
  | _ => ((Out.ok [UInt8.ofNat t.version]).andThen (t.binaryData H)).toRes

/-- The `_id_input_compute` methods (Base.py:243-248 and the overrides). -/
def Tx.idInput (H : Bytes → Bytes) (t : Tx) : Res Bytes :=
  match t with
  | .v1 _ => t.binaryEncode H
  | .v128 v => ((Out.ok specV128).andThen v.binaryData).toRes
  | .v129 v => ((Out.ok specV129).andThen v.binaryData).toRes
  | .v144 v => ((Out.ok specV144).andThen v.binaryData).toRes
  | .v145 v => ((Out.ok specV145).andThen v.binaryData).toRes
  | .v146 v => ((Out.ok specV146).andThen v.binaryData).toRes
  | .v208 v => ((Out.ok specV208).andThen v.binaryData).toRes
  | .v209 v => ((Out.ok specV209).andThen v.binaryData).toRes
  | .v210 v => ((Out.ok specV210).andThen v.binaryData).toRes

/-- Base.py:211-217, Standard.py:331-341: the 16-byte specifiers, 15 bytes for legacy transactions. -/
def Tx.coinSpec : Tx → Bytes
  | .v1 t => if t.legacy then utf8 "coin output\x00\x00\x00\x00".toList else utf8 "coin output\x00\x00\x00\x00\x00".toList
  | _ => utf8 "coin output\x00\x00\x00\x00\x00".toList
@[inherit_doc Tx.coinSpec] def Tx.stakeSpec : Tx → Bytes
  | .v1 t => if t.legacy then utf8 "blstake output\x00".toList else utf8 "blstake output\x00\x00".toList
  | _ => utf8 "blstake output\x00\x00".toList

/-- Base.py:235-241 `_outputid_new`: the bytes hashed into an output id. -/
def Tx.outputIdInput (H : Bytes → Bytes) (t : Tx) (spec : Bytes) (index : Int) : Res Bytes := do
  let i ← t.idInput H
  (seqOut [.ok spec, .ok i, siaInt index]).toRes

/-- Base.py:219-225 `coin_outputid_new`: the bytes hashed. -/
def Tx.coinOutputIdInput (H : Bytes → Bytes) (t : Tx) (index : Int) : Res Bytes :=
  if index < 0 ∨ index ≥ t.coinOutputs.length then .error .valueError else t.outputIdInput H t.coinSpec index
/-- Base.py:227-233 `blockstake_outputid_new`: the bytes hashed. The range check uses the number of *coin* outputs. -/
def Tx.stakeOutputIdInput (H : Bytes → Bytes) (t : Tx) (index : Int) : Res Bytes :=
  if index < 0 ∨ index ≥ t.coinOutputs.length then .error .valueError else t.outputIdInput H t.stakeSpec index

/-- types/transactions/Base.py:101-104 `__hash__`, given the transaction's `_id`. Without id the name `json_dumps`, which the module does
not import, is looked up. `hashStr` is Python's `hash` of a str. -/
def txHash (hashStr : Str → Int) : Option Hash → Res Int
  | none => .error .nameError
  | some h => .ok (hashStr h.str)

/-- types/transactions/Base.py:106-110 `__eq__` between two transactions with the given ids. -/
def txEq (hashStr : Str → Int) (a b : Option Hash) : Res Bool := do
  let x ← txHash hashStr a
  let y ← txHash hashStr b
  return x == y

end TF
