import Verif.Model.Wallet
import Verif.Model.TxJson
/-!
# TFChainWallet.py: signing foreign transactions, minting, 3Bots and ERC20 registrations
-/
namespace TF

/-! ## `transaction_sign` -/

/-- TFChainWallet.py:452-462: the outputs the wallet can spend; later ones replace earlier ones with the same id. -/
def Wallets.known (w : Wallets) : OutMap :=
  let put (m : OutMap) (co : CoinOutput) : OutMap := m.put co.id co
  let m := (w.base.available ++ w.base.unconfAvailable).foldl put []
  w.wallets.foldl (fun m p => (p.2.base.available ++ p.2.base.unconfAvailable).foldl put m) m

/-- TFChainWallet.py:463-466: the inputs that spend known outputs get to know them. -/
def knowParents (m : OutMap) (l : List CoinInput) : List CoinInput :=
  l.map fun ci => match m.find? fun p => p.1 = ci.parentId with
    | some p => { ci with parent := some p.2 }
    | none => ci
@[inherit_doc knowParents]
def Tx.knowParents (m : OutMap) : Tx → Tx
  | .v1 t => .v1 { t with coinInputs := TF.knowParents m t.coinInputs }
  | .v144 t => .v144 { t with coinInputs := TF.knowParents m t.coinInputs }
  | .v145 t => .v145 { t with coinInputs := TF.knowParents m t.coinInputs }
  | .v146 t => .v146 { t with coinInputs := t.coinInputs.map (TF.knowParents m) }
  | .v208 t => .v208 { t with coinInputs := TF.knowParents m t.coinInputs }
  | .v210 t => .v210 { t with coinInputs := t.coinInputs.map (TF.knowParents m) }
  | t => t

/-- TFChainWallet.py:470-475 (and 653-655, 726-728): a minting transaction gets to know the mint condition, and a fulfillment for it if it
has none. -/
def mintDefault (c : Condition) (f : Option Fulfillment) : Res (Option Fulfillment) :=
  match f with
  | some f => .ok (some f)
  | none => do return some (← fulfillmentFromCondition (some c))
@[inherit_doc mintDefault]
def World.knowMint (W : World) (t : Tx) : Res Tx :=
  match t with
  | .v128 m => do
    let c ← W.mintCondition
    let f ← mintDefault c m.mintFulfillment
    return .v128 { m with parent := some c, mintFulfillment := f }
  | .v129 m => do
    let c ← W.mintCondition
    let f ← mintDefault c m.mintFulfillment
    return .v129 { m with parent := some c, mintFulfillment := f }
  | t => .ok t

/-- TFChainWallet.py:446-475: what is known is added. `len(None)` raises. -/
def World.complete (W : World) (w : Wallets) (t : Tx) : Res Tx :=
  match t.coinInputs with
  | none => .error .typeError
  | some _ => W.knowMint (t.knowParents w.known)

/-- TFChainWallet.py:504-506: the inputs that belong to the wallet are spent. -/
def spendOwnInputs (H : Bytes → Bytes) (addrs : List Str) : List CoinInput → Wallets → Res Wallets
  | [], w => .ok w
  | ci :: l, w => do
    let u ← ci.parentOutput.condition.unlockhash H
    if addrs.contains (u.str H) then spendOwnInputs H addrs l (← w.addOrRaise H ci.parentOutput false true)
    else spendOwnInputs H addrs l w

/-- TFChainWallet.py:500-511: after the transaction is posted. -/
def World.afterSign (W : World) (w : Wallets) (t : Tx) : Res Tx := do
  let _ ← W.put t
  let addrs ← W.addresses
  let addrs := addrs ++ w.wallets.map (·.1)
  let w ← spendOwnInputs W.H addrs (t.coinInputs.getD []) w
  let (t, _) ← claimOutputs W.H addrs 0 t.coinOutputs t w
  return t

/-- TFChainWallet.py:484-514: the requests are fulfilled and the result is submitted. -/
def World.signSome (W : World) (w : Wallets) (t : Tx) (rs : List TxRequest) (submit : Bool) : Outcome (Tx × Bool × Bool) :=
  Outcome.ofRes (W.signAll rs t) fun x =>
    Outcome.ofRes x.1.isFulfilled fun ok =>
      if submit && ok then ⟨[x.1], do return (← W.afterSign w x.1, decide (0 < x.2), true)⟩ else ⟨[], .ok (x.1, decide (0 < x.2), false)⟩

/-- TFChainWallet.py:430-514 `transaction_sign` with a transaction object: the transaction, whether the wallet signed and whether it was
submitted. -/
def World.transactionSign (W : World) (t : Tx) (submit : Bool) : Outcome (Tx × Bool × Bool) :=
  Outcome.ofRes W.balance fun w =>
    Outcome.ofRes (W.complete w t) fun t =>
      Outcome.ofRes (t.requests W.H) fun rs =>
        if rs.length = 0 then ⟨[], .ok (t, false, false)⟩ else W.signSome w t rs submit

/-- TFChainWallet.py:440-442: with the JSON of a transaction. -/
def World.jsonSign (W : World) (L : IpLib) (j : Json) (submit : Bool) : Outcome (Tx × Bool × Bool) :=
  Outcome.ofRes (Tx.fromJson L W.H j) fun t => W.transactionSign t submit

/-! ## Minting -/

/-- `txn.data = data` unless it is `None` (TFChainWallet.py:649-650, 722-723). -/
def dataUnlessNone : DataArg → Res Bytes
  | .none => .ok []
  | d => setData d

/-- TFChainWallet.py:642-644: a minter has a personal or a multi-signature address. -/
def minterType (H : Bytes → Bytes) (c : Condition) : Res Unit := do
  let u ← c.unlockhash H
  if u.type = 1 ∨ u.type = 3 then return () else throw .valueError

/-- TFChainWallet.py:633-655: the transaction of `minter.definition_set`; `nonce` is random. -/
def World.mintDefinition (W : World) (nonce : Bytes) (minter : Recipient) (data : DataArg) : Res Tx := do
  let fee ← Currency.set (.cur W.fee)
  let c ← fromRecipient W.H minter .none
  minterType W.H c
  let d ← dataUnlessNone data
  let p ← W.mintCondition
  let f ← fulfillmentFromCondition (some p)
  return .v128 { nonce := nonce, mintCondition := c, minerFees := [fee], data := d, parent := some p, mintFulfillment := some f }

/-- TFChainWallet.py:667-672: post the transaction if it is fulfilled. -/
def World.submitOnly (W : World) (t : Tx) : Outcome (Tx × Bool) :=
  Outcome.ofRes t.isFulfilled fun ok =>
    if ok then ⟨[t], do let _ ← W.put t; return (t, true)⟩ else ⟨[], .ok (t, false)⟩

/-- TFChainWallet.py:618-675 `minter.definition_set`. -/
def World.definitionSet (W : World) (nonce : Bytes) (minter : Recipient) (data : DataArg) : Outcome (Tx × Bool) :=
  Outcome.ofRes (W.mintDefinition nonce minter data) fun t => Outcome.ofRes (W.signNew t) W.submitOnly

/-- TFChainWallet.py:706-728: the transaction of `minter.coins_new`. -/
def World.coinCreation (W : World) (nonce : Bytes) (r : Recipient) (amt : CVal) (lock : LockVal) (data : DataArg) : Res Tx := do
  let fee ← Currency.set (.cur W.fee)
  let a ← positiveAmount amt
  let c ← fromRecipient W.H r lock
  let d ← dataUnlessNone data
  let p ← W.mintCondition
  let f ← fulfillmentFromCondition (some p)
  return .v129 { nonce := nonce, coinOutputs := [⟨a, c, ⟨[]⟩⟩], minerFees := [fee], data := d, parent := some p, mintFulfillment := some f }

/-- TFChainWallet.py:677-760 `minter.coins_new`. (There are no coin inputs to be spent afterwards.) -/
def World.coinsNew (W : World) (nonce : Bytes) (r : Recipient) (amt : CVal) (lock : LockVal) (data : DataArg) : Outcome (Tx × Bool) :=
  Outcome.ofRes W.balance fun w => Outcome.ofRes (W.coinCreation nonce r amt lock data) (W.signSubmit w)

/-! ## 3Bots -/

/-- An assignment to a list of names or addresses: `None` empties it. -/
def assignList {α β : Type} (max : Nat) (mk : α → Res β) (v : Option (List α)) : Res (List β) :=
  match addAllLimited max mk [] (v.getD []) with
  | (l, none) => .ok l
  | (_, some e) => .error e

/-- TFChainWallet.py:1271-1281: the registration without funds and key. -/
def registration (L : IpLib) (months : Int) (names : Option (List NameArg)) (addresses : Option (List NetArg)) : Res TxV144 := do
  let t ← ({} : TxV144).setMonths months
  if names.isNone ∧ addresses.isNone then throw .valueError
  let ns ← assignList maxNames BotName.new names
  let as ← assignList maxAddresses (NetAddr.new L) addresses
  return { t with names := ns, addresses := as }

/-- TFChainWallet.py:1283-1292, 1538-1554: the key with the given index, or a new key; the keys of the wallet afterwards. -/
def World.keyForIndex (W : World) : Option Int → Res (Keys × PublicKey)
  | none => W.keys.new1 W.H W.derive
  | some i => do
    let addrs ← W.addresses
    if i < 0 ∨ i ≥ addrs.length then throw .valueError
    match addrs[i.toNat]? with
    | none => throw .indexError
    | some a => match W.keys.get? a with
      | none => throw .keyError
      | some k => return (W.keys, k)

/-- TFChainWallet.py:1250-1293 `threebot.record_new` (`key_index` is `None` or an int). -/
def World.recordNew (W : World) (L : IpLib) (months : Int) (names : Option (List NameArg)) (addresses : Option (List NetArg)) (keyIndex : Option Int)
    (src : Source) (refund : Recipient) : Outcome (Tx × Bool) :=
  Outcome.ofRes (registration L months names addresses) fun t =>
  Outcome.ofRes t.requiredFees fun fees =>
  Outcome.ofRes W.balance fun w =>
  Outcome.ofRes (W.fundExtra w fees src refund) fun x =>
  Outcome.ofRes (W.keyForIndex keyIndex) fun k =>
    ({ W with keys := k.1 } : World).signSubmit w (.v144 { t with coinInputs := x.1, refund := x.2.1, fee := some x.2.2, key := some k.2 })

/-- TFChainWallet.py:1314-1324: the record update without funds. -/
def recordChange (L : IpLib) (id months : Int) (namesAdd namesRemove : Option (List NameArg)) (addrsAdd addrsRemove : Option (List NetArg)) : Res TxV145 := do
  if months < 1 ∧ namesAdd.isNone ∧ namesRemove.isNone ∧ addrsAdd.isNone ∧ addrsRemove.isNone then throw .valueError
  let b ← setBotId id
  let t ← ({ botid := b } : TxV145).setMonths months
  let na ← assignList maxNames BotName.new namesAdd
  let nr ← assignList maxNames BotName.new namesRemove
  let aa ← assignList maxAddresses (NetAddr.new L) addrsAdd
  let ar ← assignList maxAddresses (NetAddr.new L) addrsRemove
  return { t with namesAdd := na, namesRemove := nr, addrsAdd := aa, addrsRemove := ar }

/-- TFChainWallet.py:1326-1333: the key of the 3Bot, which is active or becomes so. -/
def World.activeOrPaid (W : World) (id months : Int) : Res PublicKey := do
  let (k, exp) ← W.record id
  let now ← W.chainTime
  if exp ≤ now ∧ months = 0 then throw .threeBotInactive
  return k

/-- TFChainWallet.py:1295-1339 `threebot.record_update` (the identifier is an int; others raise `TypeError`). -/
def World.recordUpdate (W : World) (L : IpLib) (id months : Int) (namesAdd namesRemove : Option (List NameArg))
    (addrsAdd addrsRemove : Option (List NetArg)) (src : Source) (refund : Recipient) : Outcome (Tx × Bool) :=
  Outcome.ofRes (recordChange L id months namesAdd namesRemove addrsAdd addrsRemove) fun t =>
  Outcome.ofRes (W.activeOrPaid id months) fun k =>
  Outcome.ofRes t.requiredFees fun fees =>
  Outcome.ofRes W.balance fun w =>
  Outcome.ofRes (W.fundExtra w fees src refund) fun x =>
    W.signSubmit w (.v145 { t with parentKey := some k, coinInputs := x.1, refund := x.2.1, fee := some x.2.2 })

/-- TFChainWallet.py:1370-1384: the key of an active 3Bot. -/
def World.activeKey (W : World) (now id : Int) : Res PublicKey := do
  let (k, exp) ← W.record id
  if exp ≤ now then throw .threeBotInactive
  return k

/-- TFChainWallet.py:1357-1384: the name transfer without funds. -/
def World.transfer (W : World) (sender receiver : Int) (names : Option (List NameArg)) : Res TxV146 := do
  let a ← setBotId sender
  let b ← setBotId receiver
  let ns ← assignList maxNames BotName.new names
  if ns.length = 0 then throw .valueError
  let now ← W.chainTime
  let ka ← W.activeKey now sender
  let kb ← W.activeKey now receiver
  return { sender := a, receiver := b, names := ns, senderKey := some ka, receiverKey := some kb }

/-- TFChainWallet.py:1341-1392 `threebot.name_transfer`. -/
def World.nameTransfer (W : World) (sender receiver : Int) (names : Option (List NameArg)) (src : Source) (refund : Recipient) : Outcome (Tx × Bool) :=
  Outcome.ofRes (W.transfer sender receiver names) fun t =>
  Outcome.ofRes t.requiredFees fun fees =>
  Outcome.ofRes W.balance fun w =>
  Outcome.ofRes (W.fundExtra w fees src refund) fun x =>
    W.signSubmit w (.v146 { t with coinInputs := some x.1, refund := x.2.1, fee := some x.2.2 })

/-! ## ERC20 registration -/

/-- What identifies an address of the wallet. -/
inductive WhichKey
  | new
  | str (s : Str)
  | uh (u : UnlockHash)
  | index (i : Int)
  | other

/-- TFChainWallet.py:1537-1556: the key to be registered, and the keys of the wallet afterwards. The class
`ERC20RegistrationForbidden` is modelled as `Exception`, like it is derived from. -/
def World.keyFor (W : World) : WhichKey → Res (Keys × PublicKey)
  | .new => W.keyForIndex none
  | .str s => match W.keys.get? s with
    | some k => .ok (W.keys, k)
    | none => do
      let _ ← UnlockHash.fromJson W.H (.str s)
      throw .exception
  | .uh u => match W.keys.get? (u.str W.H) with
    | some k => .ok (W.keys, k)
    | none => .error .exception
  | .index i => W.keyForIndex (some i)
  | .other => .error .valueError

/-- TFChainWallet.py:1525-1568 `erc20.address_register`. -/
def World.addressRegister (W : World) (which : WhichKey) (src : Source) (refund : Recipient) : Outcome (Tx × Bool) :=
  Outcome.ofRes (W.keyFor which) fun k =>
  Outcome.ofRes W.balance fun w =>
  Outcome.ofRes (W.fundExtra w registrationFee src refund) fun x =>
    ({ W with keys := k.1 } : World).signSubmit w (.v210 { key := some k.2, coinInputs := some x.1, refund := x.2.1, fee := some x.2.2 })

end TF
