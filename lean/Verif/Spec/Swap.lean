import Verif.Spec.Ops
import Verif.Model.Swap
/-! # Atomic swaps: what they are asked for and what may happen -/
namespace TF.Spec

/-- The argument gives the bytes `b`: nothing, or 32 bytes, as such or as hexadecimal text. -/
def Gives : BVal → Bytes → Prop
  | .none, b => b = []
  | .str s, b => fromHex s = some b ∧ (b = [] ∨ b.length = 32)
  | .bytes c, b => c = b ∧ (b = [] ∨ b.length = 32)
  | .data d, b => d.value = b ∧ (b = [] ∨ b.length = 32)
  | .other, _ => False

/-- The explorers report an unspent output with this identifier that holds the contract. -/
def Reported (W : SwapWorld) (id : BVal) (c : Contract) : Prop :=
  ∃ co, W.output id = .ok (co, false) ∧ co.condition = .atomicSwap c.sender c.receiver c.secretHash c.lockTime ∧ co.value = c.amount ∧ co.id = c.id

/-- The secret argument is the secret of the contract: the sha256 digest of the given bytes is the contract's secret hash. -/
def Opens (W : SwapWorld) (c : Contract) (secret : BVal) : Prop := ∃ b, Gives secret b ∧ c.secretHash = some (W.sha b)

/-- One of the addresses of the wallet reads as this address. -/
def Holds (W : World) (u : UnlockHash) : Prop := ∃ addrs, W.addresses = .ok addrs ∧ ∃ a ∈ addrs, Names W.H a u

/-- The addresses of the wallet are addresses of its keys, in the form keys print them, and none is the address of the all-zero key, which
stands for a missing key. -/
def OwnsKeys (W : World) : Prop :=
  ∀ addrs, W.addresses = .ok addrs → ∀ a ∈ addrs, ∃ k, W.keys.get? a = some k ∧ HasAddress W.H k a ∧ ¬ HasAddress W.H .default a

/-- `t` claims the contract: its only input spends the contract, revealing the given secret; its only output pays the amount of the contract
minus the miner fee to the address `to`; the data is attached. -/
structure Claims (W : World) (c : Contract) (to : UnlockHash) (secret : Option Bytes) (data : DataArg) (t : Tx) : Prop where
  standard : ∃ v, t = .v1 v ∧ v.stakeInputs = [] ∧ v.stakeOutputs = [] ∧ v.legacy = false ∧ payload data = some v.data
  input : ∃ ci k s, t.coinInputs = some [ci] ∧ ci.parentId = c.id ∧ ci.fulfillment = .swap k s secret ∧
    ∃ co, ci.parent = some co ∧ co.condition = .atomicSwap c.sender c.receiver c.secretHash c.lockTime ∧ co.value = c.amount
  output : ∃ co, t.coinOutputs = [co] ∧ co.condition = .unlockHash to ∧ amount co.value + amount W.fee = amount c.amount
  fee : t.minerFees.map amount = [amount W.fee]

/-- The only coin input of the transaction carries a genuine signature made with the key `k`. -/
def SignedWith (W : World) (t : Tx) (k : PublicKey) : Prop :=
  ∃ ci s secret, t.coinInputs = some [ci] ∧ ci.fulfillment = .swap k (some s) secret ∧ OwnSig W t (.coin 0) k s

/-- Amounts of reported outputs are legal and below 10^28 smallest units. -/
def SaneReports (W : SwapWorld) : Prop := ∀ id co b, W.output id = .ok (co, b) → SaneAmount co.value

/-- The operation submits at most one transaction, and returns only if it submitted the transaction it returns. -/
def ToldTruly (o : Outcome Tx) : Prop := o.posted.length ≤ 1 ∧ ∀ t', o.result = .ok t' → ∃ t, o.posted = [t] ∧ bare t' = bare t

/-! ## New contracts -/

/-- The address that can redeem a new contract: the free-for-all address for `None`, else the given one, which has to be personal. -/
def PartyOf (H : Bytes → Bytes) : Recipient → UnlockHash → Prop
  | .none, u => u = .default
  | .str s, u => Names H s u ∧ (u.type = 0 ∨ u.type = 1)
  | .uh v, u => u = v ∧ (u.type = 0 ∨ u.type = 1)
  | _, _ => False

/-- The address that can refund a new contract: the address that receives the remainder, if it is a personal one, else the primary address. -/
inductive RefunderOf (W : World) (w : Wallets) (src : Source) (refund : Recipient) (s : UnlockHash) : Prop
  | remainder (to : RefundTo W w src refund (.unlockHash s)) : RefunderOf W w src refund s
  | primary (c : Condition) (to : RefundTo W w src refund c) (other : ∀ u, c ≠ .unlockHash u) (names : Names W.H W.keys.primary s) : RefunderOf W w src refund s

/-- The time from which a new contract can be refunded, a time stamp. -/
def RefundAt (time : LockVal) (at' : Int) : Prop := (time = .int at' ∨ time = .computed at') ∧ 500000000 ≤ at'

/-- The operation handed the transaction to the network or returned it. -/
def Creates (o : Outcome (Contract × Tx × Bool)) (t : Tx) : Prop := t ∈ o.posted ∨ ∃ c b, o.result = .ok (c, t, b)

/-- What is asked of a new contract: the amount exceeds the miner fee, and the transaction is a payment of exactly this amount into a contract
between refunder and participator under this secret hash, refundable from the given time. -/
def IsContract (W : World) (w : Wallets) (r : Recipient) (amt : CVal) (hash : Bytes) (time : LockVal) (src : Source) (refund : Recipient) (data : DataArg)
    (t : Tx) : Prop :=
  ∃ a s u T, Currency.set amt = .ok a ∧ amount W.fee < amount a ∧ RefunderOf W w src refund s ∧ PartyOf W.H r u ∧ RefundAt time T ∧
    IsPayment W w [(amount a, .atomicSwap s u (some hash) T)] src refund data t

/-! ## The result of a new contract -/

/-- The contract is what the first output of the transaction holds, and is said to be unspent. -/
def Describes (c : Contract) (t : Tx) : Prop :=
  ∃ co l, t.coinOutputs = co :: l ∧ co.condition = .atomicSwap c.sender c.receiver c.secretHash c.lockTime ∧ co.value = c.amount ∧ c.unspent = true

/-- What is returned: the contract in the first output of the transaction, with the id the network gives to this output of this transaction; the
flag says whether this very transaction was submitted. -/
def ReturnsContract (W : World) (o : Outcome (Contract × Tx × Bool)) : Prop :=
  ∀ c t b, o.result = .ok (c, t, b) → Describes c t ∧ NetworkOutputId W.H t 0 c.id ∧ o.posted = if b then [t] else []

/-- When it is asked to submit, the operation submits exactly completely signed transactions, at most one. -/
structure SubmitsContract (W : World) (o : Outcome (Contract × Tx × Bool)) : Prop where
  once : o.posted.length ≤ 1
  signed : ∀ t ∈ o.posted, FullySigned W t
  no : ∀ c t, o.result = .ok (c, t, false) → ¬ FullySigned W t

/-! ## Verification -/

/-- The contract has everything that was asked for. A time is a point in time: if it is in the future, the contract cannot be refunded before it,
else it can be refunded now. -/
structure Passes (W : SwapWorld) (c : Contract) (amt : CVal) (hash : BVal) (min : LockVal) (sender receiver : Bool) : Prop where
  amount : amt ≠ .none → ∃ a, Currency.set amt = .ok a ∧ Spec.amount a = Spec.amount c.amount
  hash : hash ≠ .none → ∃ h, Gives hash h ∧ c.secretHash = some h
  time : min ≠ .none → ∃ now T, W.chainTime = .ok now ∧ (min = .int T ∨ min = .computed T) ∧ if now < T then T ≤ c.lockTime else c.lockTime ≤ now
  sender : sender = true → Holds W.toWorld c.sender
  receiver : receiver = true → Holds W.toWorld c.receiver

/-- The argument is this output identifier. -/
def Identifies : BVal → Hash → Prop
  | .none, _ => False
  | .data d, h => d.value = h.value
  | v, h => Gives v h.value

/-- `min_refund_time` as documented: 0 if the contract is expected to be refundable, else the minimum time until it becomes refundable. -/
def TimeLeft (now lockTime min : Int) : Prop := if min = 0 then lockTime ≤ now else now + min ≤ lockTime

/-- All addresses of the wallet can be read as addresses. -/
def Readable (W : World) : Prop := ∀ addrs, W.addresses = .ok addrs → ∀ a ∈ addrs, ∃ u, Names W.H a u

end TF.Spec
