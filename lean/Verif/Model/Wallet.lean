import Verif.Model.Keys
import Verif.Model.Balance
/-!
# TFChainWallet.py: paying, signing and submitting

`World` is what a wallet operation sees of its surroundings. An operation posts transactions to the network (through the client, which is
a parameter and may answer anything) and returns or raises.
-/
namespace TF

/-- The surroundings of one wallet operation: blake2b-256, ed25519 signing with the private key that belongs to a public key, the keys of
the wallet, the minimum miner fee of the network, and what the client and the explorers behind it answer. (The wallet's `balance` and
`addresses` may first scan for keys; `keys` are the keys after that.) -/
structure World where
  H : Bytes → Bytes
  sign : PublicKey → Bytes → Bytes
  keys : Keys
  fee : Currency
  balance : Res Wallets
  addresses : Res (List Str)
  put : Tx → Res Hash
  /-- ed25519: the public key of a private key seed. -/
  derive : Bytes → Bytes := id
  /-- `client.minter.condition_get()`. -/
  mintCondition : Res Condition := .error .explorerNotAvailable
  /-- The timestamp of `client.blockchain_info_get()`. -/
  chainTime : Res Int := .error .explorerNotAvailable
  /-- `client.threebot.record_get(id)`: the public key and the expiration time of a 3Bot. -/
  record : Int → Res (PublicKey × Int) := fun _ => .error .explorerNotAvailable

/-- The effect of an operation: the transactions handed to `transaction_put` in order, and what the operation returned or raised. -/
structure Outcome (α : Type) where
  posted : List Tx
  result : Res α

/-- An operation that stops before posting anything. -/
def Outcome.ofRes {α β : Type} (r : Res α) (f : α → Outcome β) : Outcome β :=
  match r with
  | .ok a => f a
  | .error e => ⟨[], .error e⟩

/-! ## Signing with the wallet's keys -/

/-- types/FulfillmentTypes.py:137-146 `input_hash_new`. -/
def World.inputHash (W : World) (t : Tx) (tgt : SigTarget) (pk : PublicKey) : Res Hash := do
  Hash.new (.bytes (W.H (← t.preimage W.H tgt pk)))

/-- TFChainWallet.py:385-392 (and everywhere else requests are fulfilled): one request. The transaction afterwards and whether it was
signed. The `KeyError` of `key_pair_get` is swallowed; nothing else in the block raises one, other exceptions propagate. -/
def World.signOne (W : World) (t : Tx) (r : TxRequest) : Res (Tx × Bool) :=
  match W.keys.get? (r.req.owner.str W.H) with
  | none => .ok (t, false)
  | some pk => match W.inputHash t r.target pk with
    | .error e => .error e
    | .ok h => match r.req.fulfillCb W.H (fun t k s => t.sign W.H r.target k s) t (.key pk) (.bytes (W.sign pk h.value)) with
      | ((_, t'), none) => .ok (t', true)
      | (_, some e) => .error e

/-- TFChainWallet.py:384-392: all requests, and how many were signed. -/
def World.signAll (W : World) : List TxRequest → Tx → Res (Tx × Nat)
  | [], t => .ok (t, 0)
  | r :: rs, t => do
    let (t, b) ← W.signOne t r
    let (t, n) ← W.signAll rs t
    return (t, if b then n + 1 else n)

/-- TFChainWallet.py:378-392: ask for the requests, refuse when there are none, sign what can be signed. -/
def World.signNew (W : World) (t : Tx) : Res Tx := do
  let rs ← t.requests W.H
  if rs.length = 0 then throw .exception
  let (t, _) ← W.signAll rs t
  return t

/-! ## Submitting -/

/-- `co.id = …` for the `i`-th coin output. (The `coin_outputs` of a coin creation by ERC20 withdrawal are new objects at every access.) -/
def setIdAt (l : List CoinOutput) (i : Nat) (id : Hash) : List CoinOutput :=
  match l[i]? with
  | none => l
  | some co => l.set i { co with id := id }
@[inherit_doc setIdAt]
def Tx.setOutputId (t : Tx) (i : Nat) (id : Hash) : Tx :=
  let rf (r : Option CoinOutput) : Option CoinOutput := if i = 0 then r.map fun co => { co with id := id } else r
  match t with
  | .v1 t => .v1 { t with coinOutputs := setIdAt t.coinOutputs i id }
  | .v129 t => .v129 { t with coinOutputs := setIdAt t.coinOutputs i id }
  | .v144 t => .v144 { t with refund := rf t.refund }
  | .v145 t => .v145 { t with refund := rf t.refund }
  | .v146 t => .v146 { t with refund := rf t.refund }
  | .v208 t => .v208 { t with refund := rf t.refund }
  | .v210 t => .v210 { t with refund := rf t.refund }
  | t => t

/-- types/transactions/Base.py:219-225 `coin_outputid_new`. -/
def Tx.coinOutputId (H : Bytes → Bytes) (t : Tx) (i : Nat) : Res Hash := do
  Hash.new (.bytes (H (← t.coinOutputIdInput H i)))

/-- `output_add` as a statement. -/
def Wallets.addOrRaise (H : Bytes → Bytes) (w : Wallets) (o : CoinOutput) (confirmed isSpent : Bool) : Res Wallets :=
  match w.outputAdd H o confirmed isSpent with
  | (w, none) => .ok w
  | (_, some e) => .error e

/-- TFChainWallet.py:403-404: the inputs are spent. -/
def spendInputs (H : Bytes → Bytes) : List CoinInput → Wallets → Res Wallets
  | [], w => .ok w
  | ci :: l, w => do spendInputs H l (← w.addOrRaise H ci.parentOutput false true)

/-- TFChainWallet.py:406-410: the outputs that belong to the wallet get their id and are added to the balance. -/
def claimOutputs (H : Bytes → Bytes) (addrs : List Str) : Nat → List CoinOutput → Tx → Wallets → Res (Tx × Wallets)
  | _, [], t, w => .ok (t, w)
  | i, co :: l, t, w => do
    let u ← co.condition.unlockhash H
    if addrs.contains (u.str H) then
      let id ← t.coinOutputId H i
      let w ← w.addOrRaise H { co with id := id } false false
      claimOutputs H addrs (i + 1) l (t.setOutputId i id) w
    else claimOutputs H addrs (i + 1) l t w

/-- TFChainWallet.py:398-410 (and 1434-1448, 2526-2539): after the transaction is posted. -/
def World.afterPost (W : World) (w : Wallets) (t : Tx) : Res Tx := do
  let _ ← W.put t
  let w ← spendInputs W.H (t.coinInputs.getD []) w
  let addrs ← W.addresses
  let (t, _) ← claimOutputs W.H (addrs ++ w.wallets.map (·.1)) 0 t.coinOutputs t w
  return t

/-- TFChainWallet.py:394-413: post the transaction if it is fulfilled; returns the transaction and whether it was submitted. -/
def World.submit (W : World) (w : Wallets) (t : Tx) : Outcome (Tx × Bool) :=
  Outcome.ofRes t.isFulfilled fun ok =>
    if ok then ⟨[t], do return (← W.afterPost w t, true)⟩ else ⟨[], .ok (t, false)⟩

/-- TFChainWallet.py:378-413: sign and submit. -/
def World.signSubmit (W : World) (w : Wallets) (t : Tx) : Outcome (Tx × Bool) :=
  Outcome.ofRes (W.signNew t) (W.submit w)

/-! ## Payments -/

/-- TFChainWallet.py:352-360 (and 1404-1412, 1631-1639, 2497-2505): where the remainder goes. `None` (here `.none`) means the suggested
refund, else the primary address. -/
def World.refundCondition (W : World) (refund : Recipient) (suggested : Option Condition) : Res Condition :=
  match refund, suggested with
  | .none, some c => .ok c
  | .none, none => do return .unlockHash (← UnlockHash.fromJson W.H (.str W.keys.primary))
  | r, _ => fromRecipient W.H r .none

/-- `Currency` of the int 0, in comparisons. -/
def zeroCur : Currency := ⟨some ⟨false, 0, 0⟩⟩

/-- Python truth of the `data` argument (TFChainWallet.py:374, 2516); other values than those modelled are taken as true. -/
def DataArg.truthy : DataArg → Bool
  | .none => false
  | .str s => !s.isEmpty
  | .bytes b => !b.isEmpty
  | _ => true

/-- TFChainWallet.py:374-376. -/
def dataIf (d : DataArg) : Res Bytes := if d.truthy then setData d else .ok []

/-- TFChainWallet.py:346-376, 2491-2517: the payment with the given outputs, which sum up to `sum`. -/
def World.payment (W : World) (w : Wallets) (outs : List CoinOutput) (sum : Currency) (src : Source) (refund : Recipient) (data : DataArg) :
    Res Tx := do
  let need ← sum.add (.cur W.fee)
  let (ins, rem, suggested) ← w.fund W.H need src
  let rf ← W.refundCondition refund suggested
  let fee ← Currency.set (.cur W.fee)
  let d ← dataIf data
  return .v1 { coinOutputs := outs ++ (if zeroCur.lt rem then [⟨rem, rf, ⟨[]⟩⟩] else []), minerFees := [fee], coinInputs := copyInputs ins, data := d }

/-- TFChainWallet.py:338-340: `Currency(value=amount)`, which has to be positive. -/
def positiveAmount (v : CVal) : Res Currency := do
  let a ← Currency.set v
  if a.le zeroCur then throw .valueError
  return a

/-- types/ERC20.py:20-40 `ERC20Address.is_valid_value` of a recipient (an `ERC20Address` object is not modelled as recipient): the address. -/
def Recipient.erc20? : Recipient → Option BVal
  | .str s => if erc20ValidStr s then some (.str s) else Option.none
  | .bytes b => if b.length = 20 then some (.bytes b) else Option.none
  | _ => Option.none

/-- TFChainWallet.py:1395-1416, 1618-1643 `_fund_txn` for 3Bot and ERC20 transactions: the inputs, the refund output and the fee. -/
def World.fundExtra (W : World) (w : Wallets) (extra : Currency) (src : Source) (refund : Recipient) :
    Res (List CoinInput × Option CoinOutput × Currency) := do
  let need ← W.fee.add (.cur extra)
  let (ins, rem, suggested) ← w.fund W.H need src
  let fee ← Currency.set (.cur W.fee)
  if zeroCur.lt rem then
    let rf ← W.refundCondition refund suggested
    return (copyInputs ins, some ⟨rem, rf, ⟨[]⟩⟩, fee)
  else return (copyInputs ins, none, fee)

/-- TFChainWallet.py:1510-1520: the transaction of `erc20.coins_send`. -/
def World.erc20Payment (W : World) (w : Wallets) (addr : BVal) (amt : CVal) (src : Source) (refund : Recipient) : Res Tx := do
  let a ← positiveAmount amt
  let address ← erc20New 20 addr
  let (ins, rf, fee) ← W.fundExtra w a src refund
  return .v208 { address := address, value := a, fee := some fee, coinInputs := ins, refund := rf }

/-- TFChainWallet.py:1491-1523 `erc20.coins_send`. -/
def World.erc20Send (W : World) (addr : BVal) (amt : CVal) (src : Source) (refund : Recipient) : Outcome (Tx × Bool) :=
  Outcome.ofRes W.balance fun w => Outcome.ofRes (W.erc20Payment w addr amt src refund) (W.signSubmit w)

/-- TFChainWallet.py:338-376: the transaction of `coins_send` to a recipient that is no ERC20 address. -/
def World.coinPayment (W : World) (w : Wallets) (r : Recipient) (amt : CVal) (src : Source) (refund : Recipient) (lock : LockVal)
    (data : DataArg) : Res Tx := do
  let a ← positiveAmount amt
  let c ← fromRecipient W.H r lock
  W.payment w [⟨a, c, ⟨[]⟩⟩] a src refund data

/-- TFChainWallet.py:304-413 `coins_send`. (The balance is fetched before the arguments are checked; only which exception is raised
depends on the order.) -/
def World.coinsSend (W : World) (r : Recipient) (amt : CVal) (src : Source) (refund : Recipient) (lock : LockVal) (data : DataArg) :
    Outcome (Tx × Bool) :=
  match r.erc20? with
  | some addr => match lock, data with
    | .none, .none => W.erc20Send addr amt src refund
    | _, _ => ⟨[], .error .valueError⟩
  | none => Outcome.ofRes W.balance fun w => Outcome.ofRes (W.coinPayment w r amt src refund lock data) (W.signSubmit w)

/-- TFChainWallet.py:2438-2481: a `CoinTransactionBuilder`; `none` once it is consumed. -/
abbrev Builder := Option (List CoinOutput)

/-- TFChainWallet.py:2443-2481 `output_add`: the builder afterwards and the exception, if any. (A consumed builder raises `RuntimeError`,
modelled as `Exception`.) -/
def World.builderAdd (W : World) (b : Builder) (r : Recipient) (amt : CVal) (lock : LockVal) : Builder × Option Err :=
  match b with
  | none => (none, some .exception)
  | some outs => match positiveAmount amt with
    | .error e => (b, some e)
    | .ok a => match fromRecipient W.H r lock with
      | .error e => (b, some e)
      | .ok c => (some (outs ++ [⟨a, c, ⟨[]⟩⟩]), none)

/-- TFChainWallet.py:2483-2517: the transaction of a builder. -/
def World.builderTx (W : World) (w : Wallets) (outs : List CoinOutput) (src : Source) (refund : Recipient) (data : DataArg) : Res Tx := do
  let sum ← sumCurrency (outs.map (·.value))
  W.payment w outs sum src refund data

/-- TFChainWallet.py:2483-2542 `send`: the builder is consumed, whatever happens. -/
def World.builderSend (W : World) (b : Builder) (src : Source) (refund : Recipient) (data : DataArg) : Builder × Outcome (Tx × Bool) :=
  (none, match b with
    | none => ⟨[], .error .attributeError⟩
    | some outs => Outcome.ofRes W.balance fun w => Outcome.ofRes (W.builderTx w outs src refund data) (W.signSubmit w))

end TF
