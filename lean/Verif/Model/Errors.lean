import Verif.Model.Contract
import Verif.Model.Overview
import Verif.Model.Explorer
/-!
# What exceptions carry (errors.py)

The other files of the model keep the class of an exception only. Here the operations whose exceptions carry values are given with these
values: `…F` is the function without the `F`, whose citation applies, with the raise statements in full. Building a message may itself
raise: dates are printed by `clock`, which is `epoch2HRDateTime` (internal/jsutils.py:169-194, 386-387) and raises for times the platform
cannot show.
-/
namespace TF

/-- errors.py:84-318: an exception with what it carries. `plain` is an exception of another class, or one raised by what the operation calls. -/
inductive Fault
  /-- errors.py:84-87 -/
  | noContent (endpoint : Str)
  /-- errors.py:89-92 -/
  | serverError (endpoint : Str)
  /-- errors.py:94-105 -/
  | postError (endpoint : Str) (data : Bytes)
  /-- errors.py:107-122 -/
  | notAvailable (endpoint : Str) (addresses : List Address)
  /-- errors.py:148-173 -/
  | insufficientAmount (amount fee : Currency)
  /-- errors.py:192-196 -/
  | forbidden (contract : Contract)
  /-- errors.py:198-204 -/
  | invalidSecret (contract : Contract)
  /-- errors.py:206-210 -/
  | contractInvalid (contract : Contract)
  /-- errors.py:212-227 -/
  | contractSpent (contract : Contract) (transaction : Tx)
  /-- errors.py:229-243 -/
  | contractNotFound (outputid : BVal)
  /-- errors.py:246-259 -/
  | botNotFound (identifier : Str)
  /-- errors.py:262-284 -/
  | botInactive (identifier expiration : Int)
  /-- errors.py:287-301 -/
  | notInWallet (address : UnlockHash)
  /-- errors.py:304-318 -/
  | registrationForbidden (address : UnlockHash)
  | plain (e : Err)

/-- errors.py: the class of an exception, as the other files of the model name it. -/
def Fault.kind : Fault → Err
  | .noContent _ => .explorerNoContent
  | .serverError _ => .explorerServerError
  | .postError _ _ => .explorerServerPostError
  | .notAvailable _ _ => .explorerNotAvailable
  | .insufficientAmount _ _ => .atomicSwapInsufficientAmount
  | .forbidden _ => .atomicSwapForbidden
  | .invalidSecret _ => .atomicSwapInvalidSecret
  | .contractInvalid _ => .atomicSwapContractInvalid
  | .contractSpent _ _ => .atomicSwapContractSpent
  | .contractNotFound _ => .atomicSwapContractNotFound
  | .botNotFound _ => .threeBotNotFound
  | .botInactive _ _ => .threeBotInactive
  | .notInWallet _ => .exception
  | .registrationForbidden _ => .exception
  | .plain e => e

/-- What is returned or raised, with what the exception carries. -/
abbrev ResF (α : Type) := Except Fault α

/-- An exception of what the operation calls (errors.py is not involved). -/
def Res.plain {α : Type} (r : Res α) : ResF α := r.mapError .plain

/-- Only the class of the exception (the view of the other files of the model; no code). -/
def Fault.erase {α : Type} (r : ResF α) : Res α := r.mapError Fault.kind

/-! ## Explorers -/

/-- TFChainExplorerClient.py:28-60, as `explorerGet`. `all` are the addresses as given to the client. -/
def explorerGetF (decode : Bytes → Option Str) (ask : Str → Reply) (endpoint : Str) (all : List Address) : List Address → ResF Bytes
  | [] => .error (.notAvailable endpoint all)
  | none :: _ => .error (.plain .typeError)
  | some a :: rest => match ask a with
    | .answer code line =>
      if ¬ okCodes.contains code then .error (.plain .typeError)
      else if code = 200 then .ok line
      else if code = 204 then .error (.noContent endpoint)
      else .error (.serverError endpoint)
    | .refused code body =>
      if code = 400 then match decode body with
        | none => .error (.plain .valueError)
        | some s => if saysNothing s then .error (.noContent endpoint) else .error (.serverError endpoint)
      else .error (.serverError endpoint)
    | .badUrl => .error (.plain .valueError)
    | .unreachable => explorerGetF decode ask endpoint all rest

/-- TFChainExplorerClient.py:62-102, as `explorerPost`; the error carries the data as encoded (line 84-87 assign it). -/
def explorerPostF (dumps : Json → Str) (ask : Str → Bytes → Reply) (endpoint : Str) (all : List Address) (data : PostData) : List Address → List Str × ResF Bytes
  | [] => ([], .error (.notAvailable endpoint all))
  | none :: _ => ([], .error (.plain .typeError))
  | some a :: rest => match data.encode dumps with
    | .error e => ([], .error (.plain e))
    | .ok d => match ask a d with
      | .answer code line =>
        if ¬ okCodes.contains code then ([a], .error (.plain .typeError))
        else if code = 200 then ([a], .ok line)
        else ([a], .error (.postError endpoint d))
      | .refused _ _ => ([a], .error (.postError endpoint d))
      | .badUrl => ([], .error (.plain .valueError))
      | .unreachable =>
        let r := explorerPostF dumps ask endpoint all data rest
        (a :: r.1, r.2)

/-! ## Atomic swap contracts -/

/-- `client.coin_output_get(id)` (TFChainClient.py:309-321): the output and the transaction that spends it, if one is reported. -/
abbrev Told := BVal → Res (CoinOutput × Option Tx)

/-- TFChainWallet.py:897-913, 999-1013, 1034-1048, as `SwapWorld.fetch`; a spent contract is reported as spent. -/
def SwapWorld.fetchF (W : SwapWorld) (told : Told) (id : BVal) (unspent : Bool) : ResF Contract :=
  match told id with
  | .error .explorerNoContent => .error (.contractNotFound id)
  | .error e => .error (.plain e)
  | .ok (co, some t) => do
    let _ ← W.chainTime.plain
    let c ← (Contract.ofOutput co false).plain
    throw (.contractSpent c t)
  | .ok (co, none) => do
    let _ ← W.chainTime.plain
    (Contract.ofOutput co unspent).plain

/-- TFChainWallet.py:1014-1024, as `SwapWorld.mayRedeem`. -/
def SwapWorld.mayRedeemF (W : SwapWorld) (c : Contract) (secret : BVal) : ResF Unit := do
  if !(← (c.verifySecret W.sha secret).plain) then throw (.invalidSecret c)
  let addrs ← W.addresses.plain
  if !(← (addressIn W.H c.receiver addrs).plain) then throw (.forbidden c)

/-- TFChainWallet.py:1049-1057, as `SwapWorld.mayRefund`. -/
def SwapWorld.mayRefundF (W : SwapWorld) (clock : Int → Res Str) (c : Contract) : ResF Unit := do
  let now ← W.chainTime.plain
  if now < c.lockTime then
    let _ ← (clock c.lockTime).plain
    throw (.forbidden c)
  let addrs ← W.addresses.plain
  if !(← (addressIn W.H c.sender addrs).plain) then throw (.forbidden c)

/-- TFChainWallet.py:987-1024: the contract `redeem` goes on to claim. -/
def SwapWorld.redeemableF (W : SwapWorld) (told : Told) (id secret : BVal) : ResF Contract := do
  let c ← W.fetchF told id false
  W.mayRedeemF c secret
  return c

/-- TFChainWallet.py:1026-1057: the contract `refund` goes on to claim. -/
def SwapWorld.refundableF (W : SwapWorld) (clock : Int → Res Str) (told : Told) (id : BVal) : ResF Contract := do
  let c ← W.fetchF told id false
  W.mayRefundF clock c
  return c

/-- TFChainWallet.py:940-969, as `SwapWorld.checkRefundTime`; what the messages say is worked out first. -/
def SwapWorld.checkRefundTimeF (W : SwapWorld) (clock : Int → Res Str) (F : FloatSeconds) (c : Contract) (min : LockVal) : ResF Unit :=
  match min with
  | .none => .ok ()
  | min => do
    let now ← W.chainTime.plain
    let m ← (refundTime min).plain
    let wanted := max 0 (m - now)
    let left := if now ≥ c.lockTime then 0 else c.lockTime - now
    if wanted ≤ 0 then
      if left ≠ 0 then throw (.contractInvalid c)
    else if left < wanted then
      if left = 0 then
        let _ ← (durString F (.int wanted)).plain
        let _ ← (clock c.lockTime).plain
        throw (.contractInvalid c)
      else
        let _ ← (durString F (.int wanted)).plain
        let _ ← (durString F (.int left)).plain
        throw (.contractInvalid c)

/-- A check of `verify` that raises `AtomicSwapContractInvalid` with the contract (TFChainWallet.py:916-937, 971-980). -/
def invalidOf {α : Type} (c : Contract) (r : Res α) : ResF α :=
  r.mapError fun e => if e = .atomicSwapContractInvalid then .contractInvalid c else .plain e

/-- TFChainWallet.py:897-919, as `SwapWorld.toVerify`. -/
def SwapWorld.toVerifyF (W : SwapWorld) (told : Told) (id : BVal) : Option Contract → ResF Contract
  | none => W.fetchF told id true
  | some c => do
    let other ← (otherData id).plain
    let same ← ((⟨c.id.value, some 32, .hex⟩ : BinData).eq other).plain
    if !same then throw (.contractInvalid c)
    return c

/-- TFChainWallet.py:880-985, as `SwapWorld.verify`. -/
def SwapWorld.verifyF (W : SwapWorld) (clock : Int → Res Str) (F : FloatSeconds) (told : Told) (id : BVal) (amt : CVal) (hash : BVal) (min : LockVal)
    (sender receiver : Bool) (given : Option Contract) : ResF Contract := do
  let c ← W.toVerifyF told id given
  invalidOf c (c.checkAmount amt)
  invalidOf c (c.checkSecretHash hash)
  W.checkRefundTimeF clock F c min
  invalidOf c (W.checkParty c.sender sender)
  invalidOf c (W.checkParty c.receiver receiver)
  return c

/-- TFChainWallet.py:1073-1084, as `SwapWorld.swapAmount`. -/
def SwapWorld.swapAmountF (W : SwapWorld) (amt : CVal) : ResF Currency := do
  let a ← (positiveAmount amt).plain
  if a.le W.fee then throw (.insufficientAmount a W.fee)
  return a

/-! ## 3Bots -/

/-- TFChainClient.py:740-762: the identifier as asked for. -/
def BotArg.text : BotArg → Str
  | .int i => intStr i
  | .name n => n.value
  | .key k => k.str
  | .str s => s
  | .other => []

/-- TFChainClient.py:735-780, as `Client.recordGet`. -/
def Client.recordGetF (C : Client) (arg : BotArg) : ResF BotRecord := do
  let ep ← arg.endpoint.plain
  match C.get ep with
  | .error .explorerNoContent => .error (.botNotFound arg.text)
  | .error e => .error (.plain e)
  | .ok resp => (keyErrorInvalid (BotRecord.ofJson C.L resp)).plain

/-- `client.threebot.record_get` of an identifier, as `World.record`. -/
abbrev Records := Int → ResF (PublicKey × Int)

/-- TFChainWallet.py:1326-1333, as `World.activeOrPaid`. -/
def World.activeOrPaidF (W : World) (clock : Int → Res Str) (records : Records) (id months : Int) : ResF PublicKey := do
  let (k, exp) ← records id
  let now ← W.chainTime.plain
  if exp ≤ now ∧ months = 0 then
    let _ ← (clock exp).plain
    throw (.botInactive id exp)
  return k

/-- TFChainWallet.py:1370-1384, as `World.activeKey`. -/
def activeKeyF (clock : Int → Res Str) (records : Records) (now id : Int) : ResF PublicKey := do
  let (k, exp) ← records id
  if exp ≤ now then
    let _ ← (clock exp).plain
    throw (.botInactive id exp)
  return k

/-- TFChainWallet.py:1314-1333: what `record_update` goes on to fund. -/
def World.updatableF (W : World) (clock : Int → Res Str) (records : Records) (L : IpLib) (id months : Int) (namesAdd namesRemove : Option (List NameArg))
    (addrsAdd addrsRemove : Option (List NetArg)) : ResF (TxV145 × PublicKey) := do
  let t ← (recordChange L id months namesAdd namesRemove addrsAdd addrsRemove).plain
  return (t, ← W.activeOrPaidF clock records id months)

/-- TFChainWallet.py:1357-1384, as `World.transfer`. -/
def World.transferF (W : World) (clock : Int → Res Str) (records : Records) (sender receiver : Int) (names : Option (List NameArg)) : ResF TxV146 := do
  let a ← (setBotId sender).plain
  let b ← (setBotId receiver).plain
  let ns ← (assignList maxNames BotName.new names).plain
  if ns.length = 0 then throw (.plain .valueError)
  let now ← W.chainTime.plain
  let ka ← activeKeyF clock records now sender
  let kb ← activeKeyF clock records now receiver
  return { sender := a, receiver := b, names := ns, senderKey := some ka, receiverKey := some kb }

/-! ## ERC20 -/

/-- TFChainWallet.py:1537-1556, as `World.keyFor`. -/
def World.keyForF (W : World) : WhichKey → ResF (Keys × PublicKey)
  | .new => (W.keyForIndex none).plain
  | .str s => match W.keys.get? s with
    | some k => .ok (W.keys, k)
    | none => do
      let u ← (UnlockHash.fromJson W.H (.str s)).plain
      throw (.registrationForbidden u)
  | .uh u => match W.keys.get? (u.str W.H) with
    | some k => .ok (W.keys, k)
    | none => .error (.registrationForbidden u)
  | .index i => (W.keyForIndex (some i)).plain
  | .other => .error (.plain .valueError)

/-- TFChainWallet.py:1578-1593, as `ownKey`. -/
def ownKeyF (H : Bytes → Bytes) (keys : Keys) (addresses : Res (List Str)) : WhichKey → ResF PublicKey
  | .str s => match keys.get? s with
    | some k => .ok k
    | none => do
      let u ← (UnlockHash.fromJson H (.str s)).plain
      throw (.notInWallet u)
  | .uh u => match keys.get? (u.str H) with
    | some k => .ok k
    | none => .error (.notInWallet u)
  | which => (ownKey H keys addresses which).plain

end TF
