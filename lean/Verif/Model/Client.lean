import Verif.Model.Wallet
import Verif.Model.Explorer
/-!
# TFChainClient.py: what the client makes of the explorers' answers

`Client.get` is `explorer_get` followed by `json_loads`: the decoded answer for an endpoint.
-/
namespace TF

/-- What the client sees: `L` stands for the `ipaddress` library, `H` for blake2b-256, `get` for the explorers. -/
structure Client where
  L : IpLib
  H : Bytes → Bytes
  get : Str → Res Json

/-- A transaction with the attributes set by the client (types/transactions/Base.py:45-122): its id, whether it is unconfirmed, and its
height (-1 when unset). -/
structure ChainTx where
  tx : Tx
  id : Hash
  unconfirmed : Bool
  height : Int
  deriving DecidableEq, Repr

/-- `except KeyError as exc: raise ExplorerInvalidResponse` (TFChainClient.py:211-214 and elsewhere). -/
def keyErrorInvalid {α : Type} : Res α → Res α
  | .error .keyError => .error .explorerInvalidResponse
  | r => r

/-- `v == s` for a str `s`. -/
def Json.isStr (j : Json) (s : Str) : Bool :=
  match j with
  | .str t => t = s
  | _ => false

/-- A JSON value assigned to a `Hash` (`Hash(value=v)`). -/
def Json.bval : Json → BVal
  | .null => .none
  | .str s => .str s
  | _ => .other

/-! ## Transactions -/

/-- TFChainClient.py:386-389: every input gets its parent output, whose id is the one the input refers to. -/
def attachParents : List CoinInput → List CoinOutput → List CoinInput
  | ci :: l, co :: cos => { ci with parent := some { co with id := ci.parentId } } :: attachParents l cos
  | l, _ => l
@[inherit_doc attachParents]
def Tx.attachParents (t : Tx) (cos : List CoinOutput) : Tx :=
  match t with
  | .v1 t => .v1 { t with coinInputs := TF.attachParents t.coinInputs cos }
  | .v144 t => .v144 { t with coinInputs := TF.attachParents t.coinInputs cos }
  | .v145 t => .v145 { t with coinInputs := TF.attachParents t.coinInputs cos }
  | .v146 t => .v146 { t with coinInputs := t.coinInputs.map (TF.attachParents · cos) }
  | .v208 t => .v208 { t with coinInputs := TF.attachParents t.coinInputs cos }
  | .v210 t => .v210 { t with coinInputs := t.coinInputs.map (TF.attachParents · cos) }
  | t => t

/-- TFChainClient.py:394-395: the ids of the coin outputs, from index `i` on. (Those of a coin creation by ERC20 withdrawal are set on
objects that are thrown away, see `Tx.setOutputId`.) -/
def Tx.setIds (t : Tx) (i : Nat) : List Hash → Tx
  | [] => t
  | h :: hs => (t.setOutputId i h).setIds (i + 1) hs

/-- TFChainClient.py:400-403: parents of blockstake inputs. -/
def attachStakeParents : List StakeInput → List StakeOutput → List StakeInput
  | ci :: l, co :: cos => { ci with parent := { co with id := ci.parentId } } :: attachStakeParents l cos
  | l, _ => l

/-- TFChainClient.py:408-409: ids of blockstake outputs. -/
def setStakeIds : List StakeOutput → List Hash → List StakeOutput
  | o :: l, h :: hs => { o with id := h } :: setStakeIds l hs
  | l, _ => l

/-- TFChainClient.py:396-409 for the only kind of transaction with blockstakes. -/
def Tx.attachStakes (t : Tx) (parents : List StakeOutput) (ids : List Hash) : Tx :=
  match t with
  | .v1 t => .v1 { t with stakeInputs := attachStakeParents t.stakeInputs parents, stakeOutputs := setStakeIds t.stakeOutputs ids }
  | t => t

/-- types/transactions/Base.py:111-122: the `height` setter. -/
def heightOf (j : Json) : Res Int := do
  let h ← j.toInt
  if h < 0 then throw .valueError
  return h

/-- TFChainClient.py:411-415 with types/transactions/Base.py:75-122: `unconfirmed` has to be a bool; the height of a confirmed transaction has to be
a non-negative number (`int(None)` raises `TypeError`). -/
def confirmation (e : Json) : Res (Bool × Int) := do
  match ← e.getD "unconfirmed" (.bool false) with
  | .bool true => return (true, -1)
  | .bool false => return (false, ← heightOf (← e.getD "height" .null))
  | _ => throw .typeError

/-- `len(transaction.coin_inputs)`, `for ci in txn.coin_inputs`: `None` raises `TypeError`. -/
def Tx.inputsList (t : Tx) : Res (List CoinInput) :=
  match t.coinInputs with
  | none => .error .typeError
  | some l => .ok l

/-- TFChainClient.py:384-385, 392-393, 398-399, 406-407: the number of inputs or outputs and what belongs to them. -/
def sameLength (a b : Nat) : Res Unit := if a ≠ b then .error .explorerInvalidResponse else .ok ()

/-- TFChainClient.py:378-417 `_transaction_from_explorer_transaction`. (A `rawtransaction` given as text instead of an object is not
modelled.) -/
def parseTx (L : IpLib) (H : Bytes → Bytes) (e : Json) : Res ChainTx := do
  let raw ← e.idx "rawtransaction"
  let eid ← e.idx "id"
  let t ← Tx.fromJson L H raw
  let id ← Hash.new eid.bval
  let parents ← e.listField "coininputoutputs"
  let ins ← t.inputsList
  sameLength ins.length parents.length
  let cos ← parents.mapM (CoinOutput.fromJson H)
  let outIds ← e.listField "coinoutputids"
  sameLength t.coinOutputs.length outIds.length
  let ids ← outIds.mapM hashOfJson
  let sparents ← e.listField "blockstakeinputoutputs"
  sameLength t.stakeInputs.length sparents.length
  let sos ← sparents.mapM (StakeOutput.fromJson H)
  let soutIds ← e.listField "blockstakeoutputids"
  sameLength t.stakeOutputs.length soutIds.length
  let sids ← soutIds.mapM hashOfJson
  let (u, h) ← confirmation e
  return ⟨((t.attachParents cos).setIds 0 ids).attachStakes sos sids, id, u, h⟩

/-- TFChainClient.py:272, 281, 226, 174: a condition without which the answer is invalid. -/
def expect (b : Bool) : Res Unit := if b then .ok () else .error .explorerInvalidResponse

/-- `"/explorer/hashes/" + id`. -/
def hashesEndpoint (id : Str) : Str := "/explorer/hashes/".toList ++ id

/-- TFChainClient.py:225-230: the answer, once fetched. -/
def readTransaction (L : IpLib) (H : Bytes → Bytes) (txid : Str) (resp : Json) : Res ChainTx := do
  expect ((← resp.idx "hashtype").isStr "transactionid".toList)
  let e ← resp.idx "transaction"
  expect ((← e.idx "id").isStr txid)
  parseTx L H e

/-- TFChainClient.py:216-234 `transaction_get`. -/
def Client.transactionGet (C : Client) (id : BVal) : Res ChainTx := do
  let txid := (← Hash.new id).str
  let resp ← C.get (hashesEndpoint txid)
  keyErrorInvalid (readTransaction C.L C.H txid resp)

/-! ## Outputs -/

/-- `a > b` on two JSON values, where both are numbers; otherwise `TypeError` (two str or two lists, which can be compared, are not
modelled). -/
def Json.gt (a b : Json) : Res Bool :=
  match a.asInt?, b.asInt? with
  | some x, some y => .ok (x > y)
  | _, _ => .error .typeError

/-- TFChainClient.py:349-359: the creating transaction and the spending one, if any. -/
def splitTransactions (l : List Json) : Res (Json × Option Json) :=
  match l with
  | [a] => .ok (a, none)
  | [a, b] => do
    if ← (← b.idx "height").gt (← a.idx "height") then return (a, some b) else return (b, some a)
  | _ => .error .explorerInvalidResponse

/-- Which kind of output is asked for. -/
inductive OutputKind | coin | stake
  deriving DecidableEq, Repr

/-- TFChainClient.py:310, 320, 340. -/
def OutputKind.hashType : OutputKind → Str
  | .coin => "coinoutputid".toList
  | .stake => "blockstakeoutputid".toList

/-- TFChainClient.py:360-362. -/
def parseSpend (L : IpLib) (H : Bytes → Bytes) : Option Json → Res (Option ChainTx)
  | none => .ok none
  | some e => do return some (← parseTx L H e)

/-- TFChainClient.py:343-362: the two transactions in the answer. -/
def readOutputTxs (L : IpLib) (H : Bytes → Bytes) (kind : OutputKind) (resp : Json) : Res (ChainTx × Option ChainTx) := do
  expect ((← resp.idx "hashtype").isStr kind.hashType)
  let (c, s) ← splitTransactions (← (← resp.idx "transactions").iter)
  let creation ← parseTx L H c
  let spend ← parseSpend L H s
  return (creation, spend)

/-- TFChainClient.py:364-372: the coin output with the id among those of the creating transaction. -/
def findCoin (id : Str) (t : Tx) : Res CoinOutput :=
  match t.coinOutputs.find? fun o => o.id.str = id with
  | some o => .ok o
  | none => .error .explorerInvalidResponse
@[inherit_doc findCoin]
def findStake (id : Str) (t : Tx) : Res StakeOutput :=
  match t.stakeOutputs.find? fun o => o.id.str = id with
  | some o => .ok o
  | none => .error .explorerInvalidResponse

/-- TFChainClient.py:302-310, 322-376 `coin_output_get`. -/
def Client.coinOutputGet (C : Client) (id : BVal) : Res (CoinOutput × ChainTx × Option ChainTx) := do
  let i := (← Hash.new id).str
  let resp ← C.get (hashesEndpoint i)
  keyErrorInvalid do
    let (creation, spend) ← readOutputTxs C.L C.H .coin resp
    let o ← findCoin i creation.tx
    return (o, creation, spend)

/-- TFChainClient.py:312-376 `blockstake_output_get`. -/
def Client.stakeOutputGet (C : Client) (id : BVal) : Res (StakeOutput × ChainTx × Option ChainTx) := do
  let i := (← Hash.new id).str
  let resp ← C.get (hashesEndpoint i)
  keyErrorInvalid do
    let (creation, spend) ← readOutputTxs C.L C.H .stake resp
    let o ← findStake i creation.tx
    return (o, creation, spend)

/-! ## Addresses -/

/-- TFChainClient.py:579-601 `ERC20AddressInfo`. -/
structure Erc20Info where
  tft : UnlockHash
  erc20 : Bytes
  confirmations : Int
  deriving DecidableEq, Repr

/-- TFChainClient.py:285-289, 822-826. -/
def Erc20Info.ofJson (H : Bytes → Bytes) (j : Json) : Res Erc20Info := do
  let t ← UnlockHash.fromJson H (← j.idx "tftaddress")
  let a ← erc20FromJson 20 (← j.idx "erc20address")
  let n ← (← j.idx "confirmations").toInt
  return ⟨t, a, n⟩

/-- TFChainClient.py:475-491 `ExplorerUnlockhashResult`. -/
structure History where
  address : UnlockHash
  txs : List ChainTx
  multisigs : List UnlockHash
  erc20 : Option Erc20Info
  deriving DecidableEq, Repr

/-- `sys.maxsize`. -/
def maxSize : Int := 2 ^ 63 - 1

/-- TFChainClient.py:292: what is sorted by. -/
def ChainTx.key (t : ChainTx) : Int := if t.height < 0 then maxSize else t.height

/-- TFChainClient.py:292: sorted downwards; equal keys keep their order. -/
def sortTxs (l : List ChainTx) : List ChainTx := stableSort (fun a b => b.key ≤ a.key) l

/-- TFChainClient.py:269-300: the answer, once fetched. -/
def readHistory (L : IpLib) (H : Bytes → Bytes) (address : Str) (resp : Json) : Res History := do
  expect ((← resp.idx "hashtype").isStr "unlockhash".toList)
  let txs ← (← (← resp.idx "transactions").iter).mapM (parseTx L H)
  let ms ← (← resp.listField "multisigaddresses").mapM (UnlockHash.fromJson H)
  expect (ms.all fun u => u.type = 3)
  let info ← optField resp "erc20info" (Erc20Info.ofJson H)
  let u ← UnlockHash.fromJson H (.str address)
  return ⟨u, sortTxs txs, ms, info⟩

/-- TFChainClient.py:254-300 `unlockhash_get`. -/
def Client.unlockhashGet (C : Client) (target : Recipient) : Res History := do
  let c ← fromRecipient C.H target .none
  let a := (← c.unlockhash C.H).str C.H
  let resp ← C.get (hashesEndpoint a)
  keyErrorInvalid (readHistory C.L C.H a resp)

/-! ## Balances of addresses -/

/-- The chain as known from the last block (TFChainClient.py:440-471). -/
structure ChainInfo where
  height : Int
  time : Int
  blockid : Hash
  deriving DecidableEq, Repr

/-- `output_add` as a statement. -/
def Balance.addOrRaise (H : Bytes → Bytes) (b : Balance) (o : CoinOutput) (confirmed isSpent : Bool) : Res Balance :=
  match b.outputAdd H o confirmed isSpent with
  | (b, none) => .ok b
  | (_, some e) => .error e

/-- TFChainClient.py:529-531, 533-535: the output is added if it belongs to the address. -/
def Balance.addIfOf (H : Bytes → Bytes) (address : Str) (confirmed isSpent : Bool) (b : Balance) (o : CoinOutput) : Res Balance := do
  let u ← o.condition.unlockhash H
  if u.str H = address then b.addOrRaise H o confirmed isSpent else return b

/-- TFChainClient.py:528-535: one transaction. -/
def Balance.addTx (H : Bytes → Bytes) (address : Str) (b : Balance) (t : ChainTx) : Res Balance := do
  let ins ← t.tx.inputsList
  let b ← (ins.map CoinInput.parentOutput).foldlM (Balance.addIfOf H address (!t.unconfirmed) true) b
  t.tx.coinOutputs.foldlM (Balance.addIfOf H address (!t.unconfirmed) false) b

/-- TFChainClient.py:524-535: the balance of an address that is no multi-signature address. -/
def personalBalance (H : Bytes → Bytes) (address : Str) (txs : List ChainTx) : Res Balance :=
  txs.foldlM (Balance.addTx H address) {}

/-- TFChainClient.py:549-556, 558-565: as `addIfOf`, creating the balance with the owners in the (unwrapped) condition. -/
def multiAddIfOf (H : Bytes → Bytes) (address : Str) (confirmed isSpent : Bool) (b : Option MultiBalance) (o : CoinOutput) :
    Res (Option MultiBalance) := do
  let u ← o.condition.unlockhash H
  if u.str H = address then
    match o.condition.unwrap with
    | .multiSig owners n => do
      let m ← match b with
        | some m => pure m
        | none => MultiBalance.new owners n
      return some { m with base := ← m.base.addOrRaise H o confirmed isSpent }
    | _ => throw .typeError
  else return b

/-- TFChainClient.py:566-568: a mint condition definition replaces the balance by an empty one of the new minters. -/
def multiMint (t : Tx) (b : Option MultiBalance) : Res (Option MultiBalance) :=
  match t with
  | .v128 t => do
    let (owners, n) ← ownersOf t.mintCondition
    return some (← MultiBalance.new owners n)
  | _ => .ok b

/-- TFChainClient.py:547-568: one transaction. -/
def multiAddTx (H : Bytes → Bytes) (address : Str) (b : Option MultiBalance) (t : ChainTx) : Res (Option MultiBalance) := do
  let ins ← t.tx.inputsList
  let b ← (ins.map CoinInput.parentOutput).foldlM (multiAddIfOf H address (!t.unconfirmed) true) b
  let b ← t.tx.coinOutputs.foldlM (multiAddIfOf H address (!t.unconfirmed) false) b
  multiMint t.tx b

/-- TFChainClient.py:536-541: the chain becomes known to the balance. -/
def Balance.withChain (b : Balance) (i : ChainInfo) : Balance := { b with height := i.height, time := i.time, blockid := i.blockid }

/-- TFChainClient.py:517-572 `balance(info)`, with the chain information given. -/
def History.balance (H : Bytes → Bytes) (h : History) (info : ChainInfo) : Res AnyBalance :=
  if h.address.type = 3 then do
    match ← h.txs.foldlM (multiAddTx H (h.address.str H)) none with
    | none => return .wallet ((({} : Balance)).withChain info)
    | some m => return .multi { m with base := m.base.withChain info }
  else do return .wallet ((← personalBalance H (h.address.str H) h.txs).withChain info)

/-- TFChainWallet.py:198-213: the personal addresses; the balance and the multi-signature addresses found. An address without history is
skipped. -/
def Client.addPersonal (C : Client) (info : ChainInfo) : List Str → AnyBalance → Res (AnyBalance × List Str)
  | [], b => .ok (b, [])
  | a :: l, b => match C.unlockhashGet (.str a) with
    | .error .explorerNoContent => C.addPersonal info l b
    | .error e => .error e
    | .ok h => do
      let b ← b.add C.H (some (← h.balance C.H info))
      let (b, ms) ← C.addPersonal info l b
      return (b, h.multisigs.map (fun u => u.str C.H) ++ ms)

/-- TFChainWallet.py:215-225: the multi-signature addresses. -/
def Client.addMulti (C : Client) (info : ChainInfo) : List Str → AnyBalance → Res AnyBalance
  | [], b => .ok b
  | a :: l, b => match C.unlockhashGet (.str a) with
    | .error .explorerNoContent => C.addMulti info l b
    | .error e => .error e
    | .ok h => do
      let b ← b.add C.H (some (← h.balance C.H info))
      C.addMulti info l b

/-- TFChainWallet.py:226-230: the chain is made known to the wallet's balance. -/
def AnyBalance.withChain (b : AnyBalance) (i : ChainInfo) : AnyBalance :=
  match b with
  | .wallet b => .wallet (b.withChain i)
  | .multi m => .multi { m with base := m.base.withChain i }
  | .wallets w => .wallets { w with base := w.base.withChain i }

/-- TFChainWallet.py:185-230 `balance`, after the key scan: `info` is what `blockchain_info_get` gave, `addresses` are those of the wallet's
keys. -/
def Client.walletBalance (C : Client) (info : Res ChainInfo) (addresses : List Str) : Res AnyBalance := do
  let i ← info
  let (b, ms) ← C.addPersonal i addresses (.wallets {})
  let b ← C.addMulti i ms b
  return b.withChain i

/-- `s.add(t)` for a set of transactions: equal ones (types/transactions/Base.py:98-107) are kept once. `hashStr` is Python's `hash` of a
str. -/
def txSetAdd (hashStr : Str → Int) (s : List ChainTx) (t : ChainTx) : List ChainTx :=
  if s.any fun x => hashStr x.id.str = hashStr t.id.str then s else s ++ [t]

/-- TFChainWallet.py:231-249 `transactions`, after the key scan. `order` is the order in which the set is iterated over. -/
def Client.walletTransactions (C : Client) (hashStr : Str → Int) (order : List ChainTx → List ChainTx) (addresses : List Str) : Res (List ChainTx) := do
  let hs ← addresses.mapM fun a => C.unlockhashGet (.str a)
  return sortTxs (order ((hs.flatMap History.txs).foldl (txSetAdd hashStr) []))

/-! ## Blocks -/

/-- TFChainClient.py:677-706 `ExplorerMinerPayout`. -/
structure Payout where
  id : Hash
  value : Currency
  address : UnlockHash
  deriving DecidableEq, Repr

/-- TFChainClient.py:603-674 `ExplorerBlock`. -/
structure Block where
  id : Hash
  parent : Hash
  height : Int
  time : Int
  txs : List ChainTx
  payouts : List Payout
  deriving DecidableEq, Repr

/-- What a block is asked for by (TFChainClient.py:167-179). -/
inductive BlockArg
  | height (i : Int)
  | id (v : BVal)

/-- TFChainClient.py:196-199. -/
def Payout.ofJson (H : Bytes → Bytes) (idJ mp : Json) : Res Payout := do
  let id ← hashOfJson idJ
  let v ← currencyOfJson (← mp.idx "value")
  let u ← UnlockHash.fromJson H (← mp.idx "unlockhash")
  return ⟨id, v, u⟩

/-- TFChainClient.py:194-199: the payouts, in order. -/
def readPayouts (H : Bytes → Bytes) : List Json → List Json → Res (List Payout)
  | i :: ids, mp :: mps => do return (← Payout.ofJson H i mp) :: (← readPayouts H ids mps)
  | _, _ => .ok []

/-- TFChainClient.py:180-210: the block in the answer. -/
def readBlock (L : IpLib) (H : Bytes → Bytes) (b : Json) : Res Block := do
  let txs ← (← (← b.idx "transactions").iter).mapM (parseTx L H)
  let raw ← b.idx "rawblock"
  let parent ← hashOfJson (← raw.idx "parentid")
  let ids ← b.listField "minerpayoutids"
  let mps ← raw.listField "minerpayouts"
  sameLength mps.length ids.length
  let payouts ← readPayouts H ids mps
  let height ← (← b.idx "height").toInt
  let time ← (← raw.idx "timestamp").toInt
  let id ← hashOfJson (← b.idx "blockid")
  return ⟨id, parent, height, time, txs, payouts⟩

/-- TFChainClient.py:173-179: the answer to a request by id. -/
def readBlockById (L : IpLib) (H : Bytes → Bytes) (id : Str) (resp : Json) : Res Block := do
  expect ((← resp.idx "hashtype").isStr "blockid".toList)
  let b ← resp.idx "block"
  expect ((← b.idx "blockid").isStr id)
  readBlock L H b

/-- TFChainClient.py:156-214 `block_get`. -/
def Client.blockGet (C : Client) (arg : BlockArg) : Res Block :=
  keyErrorInvalid <| match arg with
  | .height i => do
    let resp ← C.get ("/explorer/blocks/".toList ++ intStr i)
    readBlock C.L C.H (← resp.idx "block")
  | .id v => do
    let id := (← Hash.new v).str
    let resp ← C.get (hashesEndpoint id)
    readBlockById C.L C.H id resp

/-- TFChainClient.py:146-154, 440-471 `blockchain_info_get` (a `KeyError` for a missing block id is not translated). -/
def Client.infoGet (C : Client) : Res ChainInfo := do
  let resp ← C.get "/explorer".toList
  let id ← hashOfJson (← resp.idx "blockid")
  let b ← C.blockGet (.id (.data ⟨id.value, some 32, .hex⟩))
  return ⟨b.height, b.time, b.id⟩

/-! ## 3Bots, mint condition, ERC20 addresses, submission -/

/-- TFChainClient.py:829-856 `ThreeBotRecord`. -/
structure BotRecord where
  id : Int
  names : List BotName
  addresses : List NetAddr
  key : PublicKey
  expiration : Int
  deriving DecidableEq, Repr

/-- What a 3Bot is looked up by (TFChainClient.py:741-757). -/
inductive BotArg
  | int (i : Int)
  | name (n : BotName)
  | key (k : PublicKey)
  | str (s : Str)
  | other

/-- TFChainClient.py:740-762: the endpoint asked. -/
def BotArg.endpoint : BotArg → Res Str
  | .int i => .ok ("/explorer/3bot/".toList ++ intStr i)
  | .name n => .ok ("/explorer/whois/3bot/".toList ++ n.value)
  | .key k => .ok ("/explorer/3bot/".toList ++ k.str)
  | .str s =>
    if botNameRe.matchDollar s then .ok ("/explorer/whois/3bot/".toList ++ s)
    else match PublicKey.fromStr s with
      | .ok _ => .ok ("/explorer/3bot/".toList ++ s)
      | .error e => .error e
  | .other => .error .typeError

/-- TFChainClient.py:768-777: the record in the answer. -/
def BotRecord.ofJson (L : IpLib) (resp : Json) : Res BotRecord := do
  let r ← resp.idx "record"
  let id ← (← r.idx "id").toInt
  let names ← (← r.listField "names").mapM BotName.fromJson
  let addrs ← (← r.listField "addresses").mapM (NetAddr.fromJson L)
  let key ← PublicKey.fromJson (← r.idx "publickey")
  let exp ← (← r.idx "expiration").toInt
  return ⟨id, names, addrs, key, exp⟩

/-- TFChainClient.py:735-780 `record_get`. -/
def Client.recordGet (C : Client) (arg : BotArg) : Res BotRecord := do
  let ep ← arg.endpoint
  match C.get ep with
  | .error .explorerNoContent => .error .threeBotNotFound
  | .error e => .error e
  | .ok resp => keyErrorInvalid (BotRecord.ofJson C.L resp)

/-- TFChainClient.py:698-724 `condition_get`. -/
def Client.mintConditionGet (C : Client) (height : Option Int) : Res Condition := do
  let ep := match height with
    | none => "/explorer/mintcondition".toList
    | some h => "/explorer/mintcondition/".toList ++ intStr h
  let resp ← C.get ep
  keyErrorInvalid (do Condition.fromJson C.H (← resp.idx "mintcondition"))

/-- TFChainClient.py:813-829: the answer to `erc20.address_get`. -/
def readErc20 (H : Bytes → Bytes) (resp : Json) : Res Erc20Info := do
  expect ((← resp.idx "hashtype").isStr "unlockhash".toList)
  if !(← resp.has "erc20info") then throw .explorerNoContent
  Erc20Info.ofJson H (← resp.idx "erc20info")

/-- TFChainClient.py:793-829 `erc20.address_get`. -/
def Client.erc20Get (C : Client) (address : SourceArg) : Res Erc20Info := do
  let u ← address.resolve C.H
  if u.type ≠ 1 then throw .typeError
  let resp ← C.get (hashesEndpoint (u.str C.H))
  keyErrorInvalid (readErc20 C.H resp)

end TF
