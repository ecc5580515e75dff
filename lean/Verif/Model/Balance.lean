import Verif.Model.TxBuild
/-!
# TFChainWallet.py: wallet balances, funding and draining

Python `dict`s are association lists in insertion order, `set`s of addresses are lists without repetition. Objects shared between two
balances are not modelled: a balance is a value.
-/
namespace TF

/-- TFChainWallet.py:25 `_MAX_RIVINE_TRANSACTION_INPUTS`. -/
def maxInputs : Nat := 99

/-! ## Dictionaries of outputs -/

/-- A dict from output ids to coin outputs. Keys are compared with `Hash.__eq__`, i.e. by their bytes. -/
abbrev OutMap := List (Hash × CoinOutput)

/-- `id in d`. -/
def OutMap.has (m : OutMap) (k : Hash) : Bool := m.any fun p => p.1 = k
/-- `d[id] = output`: an existing key keeps its place, a new one goes to the end. -/
def OutMap.put (m : OutMap) (k : Hash) (v : CoinOutput) : OutMap :=
  if m.has k then m.map fun p => if p.1 = k then (p.1, v) else p else m ++ [(k, v)]
/-- `d.pop(id, None)`. -/
def OutMap.pop (m : OutMap) (k : Hash) : OutMap := m.filter fun p => p.1 ≠ k
/-- `d.values()`. -/
def OutMap.values (m : OutMap) : List CoinOutput := m.map (·.2)
/-- `for id, output in other.items(): d[id] = output` (TFChainWallet.py:2049-2052). -/
def OutMap.update (m other : OutMap) : OutMap := other.foldl (fun d p => d.put p.1 p.2) m

/-- `s.add(x)`. -/
def setAdd (l : List Str) (x : Str) : List Str := if l.contains x then l else l ++ [x]

/-! ## WalletBalance -/

/-- TFChainWallet.py:1820-1833 `WalletBalance`. -/
structure Balance where
  outputs : OutMap := []
  spent : OutMap := []
  unconf : OutMap := []
  unconfSpent : OutMap := []
  time : Int := 0
  height : Int := 0
  blockid : Hash := ⟨[]⟩
  addresses : List Str := []
  deriving DecidableEq, Repr

/-- TFChainWallet.py:1919, 1936, 1954, 1965, 1976: `self.chain_time > 0 and self.chain_height > 0`. -/
def Balance.knowsChain (b : Balance) : Bool := b.time > 0 && b.height > 0
/-- `co.condition.lock.locked_check(time=self.chain_time, height=self.chain_height)`. -/
def Balance.isLocked (b : Balance) (co : CoinOutput) : Bool := lockedCheck co.condition.lock b.height b.time

/-- TFChainWallet.py:1931-1940 `outputs_available`. -/
def Balance.available (b : Balance) : List CoinOutput :=
  if b.knowsChain then b.outputs.values.filter fun co => !b.isLocked co else b.outputs.values
/-- TFChainWallet.py:1914-1923 `outputs_unconfirmed_available`. -/
def Balance.unconfAvailable (b : Balance) : List CoinOutput :=
  if b.knowsChain then b.unconf.values.filter fun co => !b.isLocked co else b.unconf.values

/-- `sum([...])` of currencies. The start value, the int 0, is given as a currency of zero; an empty sum, which is the int 0 in Python,
is that currency too (every use compares it, adds to it or replaces it by `Currency()`). `0 + v` is `v.__radd__(0)`. -/
def sumCurrency (l : List Currency) : Res Currency := l.foldlM (fun acc v => acc.add (.cur v)) ⟨some ⟨false, 0, 0⟩⟩

/-- TFChainWallet.py:1942-1947 `available`. -/
def Balance.availableCoins (b : Balance) : Res Currency := sumCurrency (b.available.map (·.value))
/-- TFChainWallet.py:1949-1958 `locked`. -/
def Balance.lockedCoins (b : Balance) : Res Currency :=
  if b.knowsChain then sumCurrency ((b.outputs.values.filter fun co => b.isLocked co).map (·.value)) else Currency.set (.int 0)
/-- TFChainWallet.py:1960-1969 `unconfirmed`. -/
def Balance.unconfCoins (b : Balance) : Res Currency := sumCurrency (b.unconfAvailable.map (·.value))
/-- TFChainWallet.py:1971-1980 `unconfirmed_locked`. -/
def Balance.unconfLockedCoins (b : Balance) : Res Currency :=
  if b.knowsChain then sumCurrency ((b.unconf.values.filter fun co => b.isLocked co).map (·.value)) else Currency.set (.int 0)

/-- TFChainWallet.py:1894-1900 `active`. -/
def Balance.active (b : Balance) : Bool := b.outputs.length > 0 || b.unconf.length > 0

/-- TFChainWallet.py:1986-2005: the dictionaries after `output_add`. -/
def Balance.record (b : Balance) (o : CoinOutput) (confirmed isSpent : Bool) : Balance :=
  if confirmed then
    if isSpent then
      { b with spent := b.spent.put o.id o, outputs := b.outputs.pop o.id, unconf := b.unconf.pop o.id, unconfSpent := b.unconfSpent.pop o.id }
    else if !b.spent.has o.id && !b.unconfSpent.has o.id then
      { b with outputs := b.outputs.put o.id o, unconf := b.unconf.pop o.id }
    else b
  else if !b.spent.has o.id then
    if isSpent then
      { b with unconfSpent := b.unconfSpent.put o.id o, unconf := b.unconf.pop o.id, outputs := b.outputs.pop o.id }
    else if !b.unconfSpent.has o.id then { b with unconf := b.unconf.put o.id o }
    else b
  else b

/-- TFChainWallet.py:1982-2006 `output_add`: the balance afterwards and the exception, if any (computing the address comes last). -/
def Balance.outputAdd (H : Bytes → Bytes) (b : Balance) (o : CoinOutput) (confirmed isSpent : Bool) : Balance × Option Err :=
  let b := b.record o confirmed isSpent
  match o.condition.unlockhash H with
  | .ok u => ({ b with addresses := setAdd b.addresses (u.str H) }, none)
  | .error e => (b, some e)

/-- TFChainWallet.py:2038-2047: the merge of the chain contexts. -/
def Balance.mergeChain (b other : Balance) : Res Balance :=
  if b.height ≥ other.height then
    if b.time < other.time then .error .valueError else .ok b
  else if b.time ≥ other.time then .error .valueError
  else .ok { b with time := other.time, height := other.height, blockid := other.blockid }

/-- TFChainWallet.py:2037-2056: `WalletBalance.balance_add` with another `WalletBalance`. -/
def Balance.merge (b other : Balance) : Res Balance := do
  let b ← b.mergeChain other
  return { b with
    outputs := b.outputs.update other.outputs
    spent := b.spent.update other.spent
    unconf := b.unconf.update other.unconf
    unconfSpent := b.unconfSpent.update other.unconfSpent
    addresses := other.addresses.foldl setAdd b.addresses }

/-! ## Draining -/

/-- TFChainWallet.py:2091-2105: one transaction of a drain. -/
def drainTx (condition : Condition) (fee : Currency) (data : DataArg) (used : List CoinOutput) : Res TxV1 := do
  let d ← setData data
  let fee' ← Currency.set (.cur fee)
  let total ← sumCurrency (used.map (·.value))
  let amount ← total.sub (.cur fee)
  let inputs ← used.mapM CoinInput.ofOutput
  return { data := d, minerFees := [fee'], coinOutputs := [⟨amount, condition, ⟨[]⟩⟩], coinInputs := copyInputs inputs }

/-- TFChainWallet.py:2090-2107: the loop, as long as there are outputs (`fuel` is at least their number). -/
def drainLoop (condition : Condition) (fee : Currency) (data : DataArg) : Nat → List CoinOutput → Res (List TxV1)
  | 0, _ => .ok []
  | _, [] => .ok []
  | fuel + 1, outputs => do
    let n := min outputs.length maxInputs
    let t ← drainTx condition fee data (outputs.take n)
    let rest ← drainLoop condition fee data fuel (outputs.drop n)
    return t :: rest

/-- TFChainWallet.py:2058-2110 `drain` with a `Currency` as fee (anything else raises `TypeError`). -/
def Balance.drain (H : Bytes → Bytes) (b : Balance) (r : Recipient) (fee : Currency) (unconfirmed : Bool) (data : DataArg) (lock : LockVal) :
    Res (List TxV1) := do
  let condition ← fromRecipient H r lock
  if fee.eqv ⟨some ⟨false, 0, 0⟩⟩ then throw .valueError
  let outputs := if unconfirmed then b.available ++ b.unconfAvailable else b.available
  drainLoop condition fee data outputs.length outputs

/-! ## MultiSigWalletBalance and WalletsBalance -/

/-- TFChainWallet.py:2135-2149 `MultiSigWalletBalance`. -/
structure MultiBalance where
  owners : List UnlockHash
  required : Int
  base : Balance := {}
  deriving DecidableEq, Repr

/-- TFChainWallet.py:2136-2149: the constructor. -/
def MultiBalance.new (owners : List UnlockHash) (required : Int) : Res MultiBalance :=
  if required < 1 then .error .valueError
  else if (owners.length : Int) < required then .error .valueError
  else .ok ⟨owners, required, {}⟩

/-- TFChainWallet.py:2151-2156 `address`. -/
def MultiBalance.address (H : Bytes → Bytes) (m : MultiBalance) : Res Str := do
  return (← (Condition.multiSig m.owners m.required).unlockhash H).str H

/-- A dict from addresses to multi-signature balances. -/
abbrev MultiMap := List (Str × MultiBalance)
/-- `d[address]`, `address in d`. -/
def MultiMap.get? (m : MultiMap) (a : Str) : Option MultiBalance := (m.find? fun p => p.1 = a).map (·.2)
/-- `d[address] = balance`. -/
def MultiMap.put (m : MultiMap) (a : Str) (v : MultiBalance) : MultiMap :=
  if m.any fun p => p.1 = a then m.map fun p => if p.1 = a then (p.1, v) else p else m ++ [(a, v)]

/-- TFChainWallet.py:2197-2204 `WalletsBalance`: a personal balance and those of multi-signature wallets. -/
structure Wallets where
  base : Balance := {}
  wallets : MultiMap := []
  deriving DecidableEq, Repr

/-- `output.condition.unlockhashes`, `output.condition.required_signatures` (TFChainWallet.py:2229-2231): only a multi-signature
condition has them, a time lock around one does not. -/
def ownersOf : Condition → Res (List UnlockHash × Int)
  | .multiSig owners n => .ok (owners, n)
  | _ => .error .attributeError

/-- TFChainWallet.py:2228-2231: the balance of the multi-signature wallet, created when there is none yet. -/
def Wallets.multiFor (w : Wallets) (address : Str) (o : CoinOutput) : Res MultiBalance :=
  match w.wallets.get? address with
  | some m => .ok m
  | none => do
    let (owners, n) ← ownersOf o.condition
    MultiBalance.new owners n

/-- TFChainWallet.py:2221-2232 `multisig_output_add`. -/
def Wallets.multiOutputAdd (H : Bytes → Bytes) (w : Wallets) (address : Str) (o : CoinOutput) (confirmed isSpent : Bool) : Wallets × Option Err :=
  match o.condition.unwrap with
  | .multiSig .. => match w.multiFor address o with
    | .error e => (w, some e)
    | .ok m =>
      let r := m.base.outputAdd H o confirmed isSpent
      ({ w with wallets := w.wallets.put address { m with base := r.1 } }, r.2)
  | _ => (w, some .typeError)

/-- TFChainWallet.py:2234-2242 `output_add`. -/
def Wallets.outputAdd (H : Bytes → Bytes) (w : Wallets) (o : CoinOutput) (confirmed isSpent : Bool) : Wallets × Option Err :=
  match o.condition.unlockhash H with
  | .error e => (w, some e)
  | .ok u =>
    if u.type = 3 then w.multiOutputAdd H (u.str H) o confirmed isSpent
    else
      let r := ({ w.base with addresses := setAdd w.base.addresses (u.str H) } : Balance).outputAdd H o confirmed isSpent
      ({ w with base := r.1 }, r.2)

/-- TFChainWallet.py:2271-2278 `_merge_multisig_wallet_balance`: there is no method `merge`. -/
def Wallets.mergeMulti (w : Wallets) (address : Str) (m : MultiBalance) : Res Wallets :=
  match w.wallets.get? address with
  | none => .ok { w with wallets := w.wallets.put address m }
  | some _ => .error .attributeError

/-- The three kinds of balance. -/
inductive AnyBalance
  | wallet (b : Balance)
  | multi (m : MultiBalance)
  | wallets (w : Wallets)
  deriving DecidableEq, Repr

/-- TFChainWallet.py:2252-2269 `WalletsBalance.balance_add` of a balance. -/
def Wallets.add (H : Bytes → Bytes) (w : Wallets) : AnyBalance → Res Wallets
  | .multi m => do w.mergeMulti (← m.address H) m
  | .wallet b => do return { w with base := ← w.base.merge b }
  | .wallets o => do
    let w := { w with base := ← w.base.merge o.base }
    o.wallets.foldlM (fun w p => w.mergeMulti p.1 p.2) w

/-- `balance_add` (TFChainWallet.py:2023-2056, 2171-2189, 2244-2269): the returned balance. `MultiSigWalletBalance` adds itself twice to
a new `WalletsBalance` when given another kind (2183), and reads a misspelled attribute when given its own kind (2186). -/
def AnyBalance.add (H : Bytes → Bytes) (self : AnyBalance) (other : Option AnyBalance) : Res AnyBalance :=
  match other with
  | none => .ok self
  | some other => match self, other with
    | .wallet b, .wallet o => do return .wallet (← b.merge o)
    | .wallet b, o => do
      let w ← Wallets.add H {} (.wallet b)
      return .wallets (← w.add H o)
    | .multi m, .multi _ => do
      let _ ← m.address H
      throw .attributeError
    | .multi m, _ => do
      let w ← Wallets.add H {} (.multi m)
      return .wallets (← w.add H (.multi m))
    | .wallets w, o => do return .wallets (← w.add H o)

/-! ## Funding -/

/-- TFChainWallet.py:2367-2369 (and 2385-2387, 2412-2414, 2430-2432): never more than `_MAX_RIVINE_TRANSACTION_INPUTS` outputs, the first
collected is given up. -/
def fundTrim (outs : List CoinOutput) (collected : Currency) : Res (List CoinOutput × Currency) :=
  match outs with
  | [] => .ok ([], collected)
  | first :: rest =>
    if outs.length > maxInputs then do
      let c ← collected.sub (.cur first.value)
      return (rest, c)
    else .ok (outs, collected)

/-- TFChainWallet.py:2362-2371 (and 2380-2389, 2406-2416, 2425-2434): the loop over some outputs. `true` when it returned with enough. -/
def fundLoop (amount : Currency) : List CoinOutput → List CoinOutput → Currency → Res (Bool × List CoinOutput × Currency)
  | [], outs, collected => .ok (false, outs, collected)
  | co :: rest, outs, collected =>
    if amount.le co.value then .ok (true, [co], co.value)
    else do
      let collected ← collected.add (.cur co.value)
      let (outs, collected) ← fundTrim (outs ++ [co]) collected
      if amount.le collected then return (true, outs, collected)
      else fundLoop amount rest outs collected

/-- `outputs.sort(key=lambda co: co.value)`: a stable sort. -/
def sortUp (l : List CoinOutput) : List CoinOutput := stableSort (fun a b => !b.value.lt a.value) l
/-- `outputs.sort(key=lambda co: co.value, reverse=True)`: equal values keep their order. -/
def sortDown (l : List CoinOutput) : List CoinOutput := stableSort (fun a b => !a.value.lt b.value) l

/-- TFChainWallet.py:2357-2392 and 2403-2434: confirmed outputs upwards, then unconfirmed ones downwards. -/
def fundFrom (amount : Currency) (confirmed unconfirmed outs : List CoinOutput) (collected : Currency) :
    Res (Bool × List CoinOutput × Currency) := do
  let r ← fundLoop amount (sortUp confirmed) outs collected
  if r.1 then return r
  if amount.le r.2.2 then return (true, r.2.1, r.2.2)
  fundLoop amount (sortDown unconfirmed) r.2.1 r.2.2

/-- `[co for co in outputs if co.condition.unlockhash in addresses]`. -/
def filterAddress (H : Bytes → Bytes) (addrs : List UnlockHash) : List CoinOutput → Res (List CoinOutput)
  | [] => .ok []
  | co :: rest => do
    let u ← co.condition.unlockhash H
    let r ← filterAddress H addrs rest
    return if addrs.contains u then co :: r else r

/-- TFChainWallet.py:2356-2392 `_fund_individual`. (The unconfirmed outputs are looked at only when needed; an exception their addresses
would raise is raised here in any case.) -/
def Wallets.fundIndividual (H : Bytes → Bytes) (w : Wallets) (amount : Currency) (addrs : List UnlockHash) :
    Res (Bool × List CoinOutput × Currency) := do
  let confirmed ← filterAddress H addrs w.base.available
  let unconfirmed ← filterAddress H addrs w.base.unconfAvailable
  let zero ← Currency.set (.int 0)
  fundFrom amount confirmed unconfirmed [] zero

/-- TFChainWallet.py:2394-2436: the loop of `_fund_multisig` over the wallets. -/
def fundMulti (H : Bytes → Bytes) (amount : Currency) (addrs : List UnlockHash) :
    MultiMap → List CoinOutput → Currency → Res (List CoinOutput × Currency)
  | [], outs, collected => .ok (outs, collected)
  | (address, m) :: rest, outs, collected => do
    let u ← UnlockHash.fromJson H (.str address)
    if addrs.contains u then
      let r ← fundFrom amount m.base.available m.base.unconfAvailable outs collected
      if r.1 then return (r.2.1, r.2.2) else fundMulti H amount addrs rest r.2.1 r.2.2
    else fundMulti H amount addrs rest outs collected

/-- A source address (TFChainWallet.py:2302-2313). -/
inductive SourceArg
  | str (s : Str)
  | uh (u : UnlockHash)
  | other

/-- The `source` argument of `fund`. -/
inductive Source
  | none
  | one (s : SourceArg)
  | list (l : List SourceArg)

/-- TFChainWallet.py:2303-2306, 2310-2313. -/
def SourceArg.resolve (H : Bytes → Bytes) : SourceArg → Res UnlockHash
  | .str s => UnlockHash.fromJson H (.str s)
  | .uh u => .ok u
  | .other => .error .typeError

/-- TFChainWallet.py:2314-2319: personal addresses and multi-signature addresses. -/
def splitSource : List UnlockHash → Res (List UnlockHash × List UnlockHash)
  | [] => .ok ([], [])
  | u :: rest => do
    if u.type ≠ 1 ∧ u.type ≠ 3 then throw .typeError
    let (p, m) ← splitSource rest
    return if u.type = 3 then (p, u :: m) else (u :: p, m)

/-- TFChainWallet.py:2320-2327: the suggested refund condition for a single source. -/
def Wallets.suggestRefund (H : Bytes → Bytes) (w : Wallets) (u : UnlockHash) : Res (Option Condition) :=
  if u.type = 1 then .ok (some (.unlockHash u))
  else match w.wallets.get? (u.str H) with
  | none => .ok none
  | some m => do return some (← multiSigNew H (m.owners.map fun o => .str (o.str H)) (.int m.required))

/-- TFChainWallet.py:2291-2327: personal addresses, multi-signature addresses and suggested refund. A list of one str fails at 2321: the
str was converted in the loop variable only and has no attribute `type`. (The elements are all resolved before they are sorted into
personal and multi-signature ones; the code interleaves the two, which matters only for which of two exceptions is raised.) -/
def Wallets.sources (H : Bytes → Bytes) (w : Wallets) : Source → Res (List UnlockHash × List UnlockHash × Option Condition)
  | .none => do
    let a ← w.base.available.mapM fun co => co.condition.unlockhash H
    let b ← w.base.unconfAvailable.mapM fun co => co.condition.unlockhash H
    return (a ++ b, [], Option.none)
  | .one s => do
    let u ← s.resolve H
    let (p, m) ← splitSource [u]
    return (p, m, ← w.suggestRefund H u)
  | .list l => do
    let us ← l.mapM (SourceArg.resolve H)
    let (p, m) ← splitSource us
    match l with
    | [.uh u] => return (p, m, ← w.suggestRefund H u)
    | [_] => throw .attributeError
    | _ => return (p, m, Option.none)

/-- `[CoinInput.from_coin_output(co) for co in outputs], collected-amount, refund` (TFChainWallet.py:2343, 2354). -/
def fundResult (amount : Currency) (outs : List CoinOutput) (collected : Currency) (refund : Option Condition) :
    Res (List CoinInput × Currency × Option Condition) := do
  let ins ← outs.mapM CoinInput.ofOutput
  let rem ← collected.sub (.cur amount)
  return (ins, rem, refund)

/-- TFChainWallet.py:2334-2339: the personal part of `fund`. -/
def Wallets.fundPersonal (H : Bytes → Bytes) (w : Wallets) (amount : Currency) (addrs : List UnlockHash) :
    Res (Bool × List CoinOutput × Currency) :=
  if addrs.length = 0 then .ok (false, [], ⟨none⟩) else w.fundIndividual H amount addrs

/-- TFChainWallet.py:2287-2354 `fund`; the amount is a `Currency`. -/
def Wallets.fund (H : Bytes → Bytes) (w : Wallets) (amount : Currency) (source : Source) : Res (List CoinInput × Currency × Option Condition) := do
  let (addrs, msAddrs, refund) ← w.sources H source
  if addrs.length = 0 ∧ msAddrs.length = 0 then throw .insufficientFunds
  let (_, outs, collected) ← w.fundPersonal H amount addrs
  if amount.le collected then fundResult amount outs collected refund
  else if msAddrs.length = 0 then throw .insufficientFunds
  else
    let (outs, collected) ← fundMulti H amount msAddrs w.wallets outs collected
    if collected.lt amount then throw .insufficientFunds
    fundResult amount outs collected refund

end TF
