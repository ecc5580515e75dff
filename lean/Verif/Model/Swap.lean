import Verif.Model.WalletOps
/-!
# Atomic swaps: types/AtomicSwap.py and `TFChainAtomicSwap` (TFChainWallet.py)

`SwapWorld` adds to the surroundings of a wallet what atomic swaps need: sha256 and what the explorers answer about an output.
-/
namespace TF

/-- What atomic swap operations see. `output id` is `client.coin_output_get(id)`: the output and whether a transaction is reported that
spends it. -/
structure SwapWorld extends World where
  sha : Bytes → Bytes
  output : BVal → Res (CoinOutput × Bool) := fun _ => .error .explorerNoContent

/-- types/AtomicSwap.py:14-40: an `AtomicSwapContract`. (Its timestamp is used for printing only.) -/
structure Contract where
  id : Hash
  sender : UnlockHash
  receiver : UnlockHash
  secretHash : Option Bytes
  lockTime : Int
  amount : Currency
  unspent : Bool
  deriving DecidableEq, Repr

/-- types/AtomicSwap.py:15-40: the constructor with an output. -/
def Contract.ofOutput (co : CoinOutput) (unspent : Bool) : Res Contract :=
  match co.condition with
  | .atomicSwap s r h t => .ok ⟨co.id, s, r, h, t, co.value, unspent⟩
  | _ => .error .typeError

/-- types/AtomicSwap.py:111-116 `condition`, `coin_output`. -/
def Contract.output (c : Contract) : CoinOutput := ⟨c.amount, .atomicSwap c.sender c.receiver c.secretHash c.lockTime, c.id⟩

/-- types/ConditionTypes.py:475-476 `AtomicSwapSecret(value)`. -/
def secretNew (v : BVal) : Res Bytes := do return (← BinData.new v (some 32) .hex).value

/-- types/ConditionTypes.py:495-496 `AtomicSwapSecretHash(value)`. -/
def secretHashNew (v : BVal) : Res Bytes := do return (← BinData.new v (some 32) .hex).value

/-- types/AtomicSwap.py:118-128 `verify_secret`. -/
def Contract.verifySecret (sha : Bytes → Bytes) (c : Contract) (secret : BVal) : Res Bool := do
  let s ← secretNew secret
  let h ← secretHashNew (.bytes (sha s))
  (hashedSecretData c.secretHash).eq ⟨h, some 32, .hex⟩

/-- `u in addresses` (TFChainWallet.py:975, 980, 1021, 1055) with types/ConditionTypes.py:367-383: each text is parsed. -/
def addressIn (H : Bytes → Bytes) (u : UnlockHash) : List Str → Res Bool
  | [] => .ok false
  | s :: l => do
    let v ← UnlockHash.fromJson H (.str s)
    if v.type = u.type ∧ v.hash = u.hash then return true else addressIn H u l

/-- TFChainWallet.py:897-913, 999-1013, 1034-1048: the contract with the given output identifier, which has to be unspent. -/
def SwapWorld.fetch (W : SwapWorld) (id : BVal) (unspent : Bool) : Res Contract :=
  match W.output id with
  | .error .explorerNoContent => .error .atomicSwapContractNotFound
  | .error e => .error e
  | .ok (co, spent) => do
    let _ ← W.chainTime
    let c ← Contract.ofOutput co unspent
    if spent then throw .atomicSwapContractSpent
    return c

/-! ## Claiming -/

/-- TFChainWallet.py:1162-1175: the transaction that claims a contract. -/
def SwapWorld.claim (W : SwapWorld) (c : Contract) (asSender : Bool) (secret : Option Bytes) (data : DataArg) : Res Tx := do
  let fee ← Currency.set (.cur W.fee)
  let d ← setData data
  let v ← c.amount.sub (.cur W.fee)
  return .v1 {
    minerFees := [fee], data := d
    coinInputs := [⟨c.id, .swap .default none secret, some c.output⟩]
    coinOutputs := [⟨v, .unlockHash (if asSender then c.sender else c.receiver), ⟨[]⟩⟩] }

/-- TFChainWallet.py:1197-1207: after the transaction is posted. -/
def SwapWorld.afterClaim (W : SwapWorld) (t : Tx) : Res Tx := do
  let _ ← W.put t
  let w ← W.balance
  let addrs ← W.addresses
  let (t, _) ← claimOutputs W.H addrs 0 t.coinOutputs t w
  return t

/-- TFChainWallet.py:1176-1207: sign and post it, or raise if it is not fulfilled. -/
def SwapWorld.claimSubmit (W : SwapWorld) (t : Tx) : Outcome Tx :=
  Outcome.ofRes (W.signNew t) fun t =>
    Outcome.ofRes t.isFulfilled fun ok => if ok then ⟨[t], W.afterClaim t⟩ else ⟨[], .error .exception⟩

/-- TFChainWallet.py:1014-1024: what `redeem` verifies. -/
def SwapWorld.mayRedeem (W : SwapWorld) (c : Contract) (secret : BVal) : Res Unit := do
  if !(← c.verifySecret W.sha secret) then throw .atomicSwapInvalidSecret
  let addrs ← W.addresses
  if !(← addressIn W.H c.receiver addrs) then throw .atomicSwapForbidden

/-- TFChainWallet.py:987-1030 `redeem`. -/
def SwapWorld.redeem (W : SwapWorld) (id secret : BVal) (data : DataArg) : Outcome Tx :=
  Outcome.ofRes (W.fetch id false) fun c =>
  Outcome.ofRes (W.mayRedeem c secret) fun _ =>
  Outcome.ofRes (setSecret secret) fun s =>
  Outcome.ofRes (W.claim c false s data) W.claimSubmit

/-- TFChainWallet.py:1049-1057: what `refund` verifies. -/
def SwapWorld.mayRefund (W : SwapWorld) (c : Contract) : Res Unit := do
  let now ← W.chainTime
  if now < c.lockTime then throw .atomicSwapForbidden
  let addrs ← W.addresses
  if !(← addressIn W.H c.sender addrs) then throw .atomicSwapForbidden

/-- TFChainWallet.py:1032-1064 `refund`. -/
def SwapWorld.refund (W : SwapWorld) (id : BVal) (data : DataArg) : Outcome Tx :=
  Outcome.ofRes (W.fetch id false) fun c =>
  Outcome.ofRes (W.mayRefund c) fun _ =>
  Outcome.ofRes (W.claim c true none data) W.claimSubmit

/-! ## Creating -/

/-- types/ConditionTypes.py:545-556, 563-574: the sender and receiver setters. -/
def partyNew (H : Bytes → Bytes) : Recipient → Res UnlockHash
  | .none => .ok .default
  | .str s => do swapParty (← UnlockHash.fromJson H (.str s))
  | .uh u => swapParty u
  | _ => .error .typeError

/-- TFChainWallet.py:1104-1107: who may refund the contract. -/
def SwapWorld.refunder (W : SwapWorld) : Condition → Recipient
  | .unlockHash u => .uh u
  | _ => .str W.keys.primary

/-- TFChainWallet.py:1115-1120: the time from which the contract can be refunded; a str is represented by the time it denotes. -/
def refundTime : LockVal → Res Int
  | .computed v => .ok v
  | .int v => .ok v
  | _ => .error .typeError

/-- TFChainWallet.py:1122-1124 with types/ConditionTypes.py:515-523, 592-599: the condition of a new contract. -/
def contractCondition (H : Bytes → Bytes) (sender receiver : Recipient) (secretHash : Bytes) (time : Int) : Res Condition := do
  let s ← partyNew H sender
  let r ← partyNew H receiver
  let h ← secretHashNew (.bytes secretHash)
  let t ← swapLockTime time
  return .atomicSwap s r (some h) t

/-- TFChainWallet.py:1073-1084: an amount that can pay for a claim. -/
def SwapWorld.swapAmount (W : SwapWorld) (amt : CVal) : Res Currency := do
  let a ← positiveAmount amt
  if a.le W.fee then throw .atomicSwapInsufficientAmount
  return a

/-- TFChainWallet.py:1073-1129: the transaction of a new contract. -/
def SwapWorld.contractTx (W : SwapWorld) (w : Wallets) (r : Recipient) (a : Currency) (time : LockVal) (src : Source) (refund : Recipient) (data : DataArg)
    (secretHash : Bytes) : Res Tx := do
  let need ← a.add (.cur W.fee)
  let (ins, rem, suggested) ← w.fund W.H need src
  let rf ← W.refundCondition refund suggested
  let fee ← Currency.set (.cur W.fee)
  let d ← setData data
  let t ← refundTime time
  let c ← contractCondition W.H (W.refunder rf) r secretHash t
  return .v1 {
    coinInputs := copyInputs ins, minerFees := [fee], data := d
    coinOutputs := [⟨a, c, ⟨[]⟩⟩] ++ (if zeroCur.lt rem then [⟨rem, rf, ⟨[]⟩⟩] else []) }

/-- TFChainWallet.py:1145-1149: the outputs with index `i`, …, `i + n - 1` get their id, one after the other. -/
def fillIds (H : Bytes → Bytes) : Nat → Nat → Tx → Res Tx
  | _, 0, t => .ok t
  | i, n + 1, t => do
    let id ← t.coinOutputId H i
    fillIds H (i + 1) n (t.setOutputId i id)

/-- TFChainWallet.py:1156-1160: the outputs for own addresses are added to the balance. -/
def addOutputs (H : Bytes → Bytes) (addrs : List Str) : List CoinOutput → Wallets → Res Wallets
  | [], w => .ok w
  | co :: l, w => do
    let u ← co.condition.unlockhash H
    if addrs.contains (u.str H) then addOutputs H addrs l (← w.addOrRaise H co false false) else addOutputs H addrs l w

/-- TFChainWallet.py:1153-1160: after the transaction is posted. -/
def SwapWorld.afterCreate (W : SwapWorld) (w : Wallets) (t : Tx) : Res Unit := do
  let _ ← W.put t
  let w ← spendInputs W.H (t.coinInputs.getD []) w
  let addrs ← W.addresses
  let _ ← addOutputs W.H (addrs ++ w.wallets.map (·.1)) t.coinOutputs w

/-- TFChainWallet.py:1151-1163: submit it if asked for and possible. -/
def SwapWorld.submitContract (W : SwapWorld) (w : Wallets) (t : Tx) (submit : Bool) : Outcome (Tx × Bool) :=
  if submit then Outcome.ofRes t.isFulfilled fun ok =>
    if ok then ⟨[t], do W.afterCreate w t; return (t, true)⟩ else ⟨[], .ok (t, false)⟩
  else ⟨[], .ok (t, false)⟩

/-- TFChainWallet.py:1067-1163 `_create_contract`. -/
def SwapWorld.createContract (W : SwapWorld) (r : Recipient) (amt : CVal) (time : LockVal) (src : Source) (refund : Recipient) (data : DataArg)
    (secretHash : Bytes) (submit : Bool) : Outcome (Tx × Bool) :=
  Outcome.ofRes (W.swapAmount amt) fun a =>
  Outcome.ofRes W.balance fun w =>
  Outcome.ofRes (W.contractTx w r a time src refund data secretHash) fun t =>
  Outcome.ofRes (W.signNew t) fun t =>
  Outcome.ofRes (fillIds W.H 0 t.coinOutputs.length t) fun t => W.submitContract w t submit

/-- TFChainWallet.py:838-842, 875-878: the contract in the result. (`coin_outputs[0]` of a standard transaction.) -/
def SwapWorld.resultOf (W : SwapWorld) (o : Outcome (Tx × Bool)) : Outcome (Contract × Tx × Bool) :=
  ⟨o.posted, do
    let (t, b) ← o.result
    match t.coinOutputs with
    | [] => throw .indexError
    | co :: _ =>
      let _ ← W.chainTime
      return (← Contract.ofOutput co true, t, b)⟩

/-- TFChainWallet.py:798-842 `initiate`, with the random secret: the contract, the transaction, whether it was submitted (the result also
holds the secret). -/
def SwapWorld.initiate (W : SwapWorld) (secret : Bytes) (r : Recipient) (amt : CVal) (time : LockVal) (src : Source) (refund : Recipient) (data : DataArg)
    (submit : Bool) : Outcome (Contract × Tx × Bool) :=
  Outcome.ofRes (secretHashNew (.bytes (W.sha secret))) fun h => W.resultOf (W.createContract r amt time src refund data h submit)

/-- TFChainWallet.py:844-878 `participate`. -/
def SwapWorld.participate (W : SwapWorld) (r : Recipient) (amt : CVal) (secretHash : BVal) (time : LockVal) (src : Source) (refund : Recipient)
    (data : DataArg) (submit : Bool) : Outcome (Contract × Tx × Bool) :=
  Outcome.ofRes (secretHashNew secretHash) fun h => W.resultOf (W.createContract r amt time src refund data h submit)

/-! ## Verifying -/

/-- TFChainWallet.py:940-969: the minimum refund time; `now` is the time of the chain (asked for twice, taken to be the same). -/
def Contract.refundTimeOk (c : Contract) (now : Int) (min : Int) : Bool :=
  let wanted := max 0 (min - now)
  let left := if now ≥ c.lockTime then 0 else c.lockTime - now
  if wanted ≤ 0 then left = 0 else left ≥ wanted

/-- TFChainWallet.py:921-928. -/
def Contract.checkAmount (c : Contract) (amt : CVal) : Res Unit :=
  match amt with
  | .none => .ok ()
  | amt => do
    let a ← Currency.set amt
    if !a.eqv c.amount then throw .atomicSwapContractInvalid

/-- TFChainWallet.py:930-937. -/
def Contract.checkSecretHash (c : Contract) (hash : BVal) : Res Unit :=
  match hash with
  | .none => .ok ()
  | hash => do
    let h ← secretHashNew hash
    let same ← (⟨h, some 32, .hex⟩ : BinData).eq (hashedSecretData c.secretHash)
    if !same then throw .atomicSwapContractInvalid

/-- TFChainWallet.py:940-969. -/
def SwapWorld.checkRefundTime (W : SwapWorld) (c : Contract) (min : LockVal) : Res Unit :=
  match min with
  | .none => .ok ()
  | min => do
    let now ← W.chainTime
    let m ← refundTime min
    if !c.refundTimeOk now m then throw .atomicSwapContractInvalid

/-- TFChainWallet.py:971-980. -/
def SwapWorld.checkParty (W : SwapWorld) (u : UnlockHash) (asked : Bool) : Res Unit := do
  if asked then
    let addrs ← W.addresses
    if !(← addressIn W.H u addrs) then throw .atomicSwapContractInvalid

/-- types/PrimitiveTypes.py:110-115: what a hash is compared with. -/
def otherData : BVal → Res BinData
  | .str s => BinData.new (.str s) (some 32) .hex
  | .bytes b => BinData.new (.bytes b) (some 32) .hex
  | .data d => .ok d
  | _ => .error .typeError

/-- TFChainWallet.py:897-919: the contract to verify; a given one has to have the given output identifier. -/
def SwapWorld.toVerify (W : SwapWorld) (id : BVal) (given : Option Contract) : Res Contract :=
  match given with
  | none => W.fetch id true
  | some c => do
    let other ← otherData id
    let same ← (⟨c.id.value, some 32, .hex⟩ : BinData).eq other
    if !same then throw .atomicSwapContractInvalid
    return c

/-- TFChainWallet.py:880-985 `verify`. -/
def SwapWorld.verify (W : SwapWorld) (id : BVal) (amt : CVal) (hash : BVal) (min : LockVal) (sender receiver : Bool) (given : Option Contract) :
    Res Contract := do
  let c ← W.toVerify id given
  c.checkAmount amt
  c.checkSecretHash hash
  W.checkRefundTime c min
  W.checkParty c.sender sender
  W.checkParty c.receiver receiver
  return c

end TF
