import Verif.Spec.Wallet
import Verif.Spec.TxSpec
import Verif.Model.Wallet
/-! # What a validly signed transaction is -/
namespace TF.Spec

/-- The key has the address with text `a`. -/
def HasAddress (H : Bytes → Bytes) (k : PublicKey) (a : Str) : Prop := ∃ u, k.unlockhash H = .ok u ∧ u.str H = a

/-- The key may sign for the address `u`: it is the key's address, or it is the free-for-all address (type 0). -/
def SignsFor (H : Bytes → Bytes) (k : PublicKey) (u : UnlockHash) : Prop := u.type = 0 ∨ HasAddress H k (u.str H)

/-- `s` is the signature made with the private key of `pk` of the blake2b digest of what transaction `t` asks a signer with key `pk` to
sign at `tgt`. -/
def OwnSig (W : World) (t : Tx) (tgt : SigTarget) (pk : PublicKey) (s : Signature) : Prop :=
  ∃ b, t.preimage W.H tgt pk = .ok b ∧ s.value = W.sign pk (W.H b)

/-- The fulfillment at `tgt` of transaction `t` unlocks the condition: it carries genuine signatures of the transaction as it is, by keys of
the addresses the condition names, for a multi-signature condition by at least as many different keys as required. -/
inductive Unlocks (W : World) (t : Tx) (tgt : SigTarget) : Condition → Fulfillment → Prop
  | free (k : PublicKey) (s : Signature) (genuine : OwnSig W t tgt k s) : Unlocks W t tgt .nil (.single k (some s))
  | key (u : UnlockHash) (k : PublicKey) (s : Signature) (genuine : OwnSig W t tgt k s) (owner : SignsFor W.H k u) :
      Unlocks W t tgt (.unlockHash u) (.single k (some s))
  | multi (owners : List UnlockHash) (n : Int) (ps : List KeySig) (enough : n ≤ ps.length)
      (genuine : ∀ p ∈ ps, OwnSig W t tgt p.key p.sig) (owner : ∀ p ∈ ps, ∃ u ∈ owners, SignsFor W.H p.key u)
      (distinct : (ps.map (·.key)).Nodup) : Unlocks W t tgt (.multiSig owners n) (.multi ps)
  | swap (a b : UnlockHash) (hs : Option Bytes) (lock : Int) (k : PublicKey) (s : Signature) (secret : Option Bytes)
      (genuine : OwnSig W t tgt k s) (owner : SignsFor W.H k a ∨ SignsFor W.H k b) :
      Unlocks W t tgt (.atomicSwap a b hs lock) (.swap k (some s) secret)
  | locked (v : Int) (c : Condition) (f : Fulfillment) (inner : Unlocks W t tgt c f) : Unlocks W t tgt (.lockTime v c) f

/-! ## Partly signed -/

/-- `u` is one of the addresses a condition asks signatures for. -/
def Wanted (c : Condition) (u : UnlockHash) : Prop :=
  match c.unwrap with
  | .nil => u.type = 0
  | .unlockHash v => u = v
  | .multiSig os _ => u ∈ os
  | .atomicSwap s r _ _ => u = s ∨ u = r
  | .lockTime .. => False

/-- The signature is genuine and by a key of one of those addresses. -/
def GoodKey (W : World) (t : Tx) (tgt : SigTarget) (c : Condition) (k : PublicKey) (s : Signature) : Prop :=
  OwnSig W t tgt k s ∧ ∃ u, Wanted c u ∧ SignsFor W.H k u

/-- Whatever is signed in the fulfillment is genuine. -/
def Sound (W : World) (t : Tx) (tgt : SigTarget) (c : Condition) : Fulfillment → Prop
  | .single k sig => ∀ s, sig = some s → GoodKey W t tgt c k s
  | .swap k sig _ => ∀ s, sig = some s → GoodKey W t tgt c k s
  | .multi ps => (∀ p ∈ ps, GoodKey W t tgt c p.key p.sig) ∧ (ps.map (·.key)).Nodup

/-- Sender and receiver of a name transfer have different addresses. -/
def DistinctParties (H : Bytes → Bytes) (t : Tx) : Prop :=
  ∀ m, t = .v146 m → ∀ u v, (keyOr m.senderKey).unlockhash H = .ok u → (keyOr m.receiverKey).unlockhash H = .ok v → u.str H ≠ v.str H

/-! ## Completely signed -/

/-- Every coin input of the transaction unlocks the condition of the output it spends. -/
def InputsUnlocked (W : World) (t : Tx) : Prop :=
  ∃ l, t.coinInputs = some l ∧ ∀ i ci, l[i]? = some ci → ∃ co, ci.parent = some co ∧ Unlocks W t (.coin i) co.condition ci.fulfillment

/-- The signatures a 3Bot or ERC20 registration transaction carries itself: what each is made for, by which key, and the signature. -/
def selfSignatures : Tx → List (Bytes × Option PublicKey × Option Signature)
  | .v144 t => [(specSender, t.key, t.sig)]
  | .v145 t => [(specSender, t.parentKey, t.sig)]
  | .v146 t => [(specSender, t.senderKey, t.senderSig), (specReceiver, t.receiverKey, t.receiverSig)]
  | .v210 t => [(specRegistration, t.key, t.sig)]
  | _ => []

/-- The mint condition a minting transaction has to unlock (if known), and its mint fulfillment. -/
def mintPart : Tx → Option (Option Condition × Option Fulfillment)
  | .v128 t => some (t.parent, t.mintFulfillment)
  | .v129 t => some (t.parent, t.mintFulfillment)
  | _ => none

/-- The signature is genuine, by a key with the address of `k`. -/
def SelfSigned (W : World) (t : Tx) (spec : Bytes) (k : PublicKey) (s : Signature) : Prop :=
  ∃ pk u, k.unlockhash W.H = .ok u ∧ pk.unlockhash W.H = .ok u ∧ OwnSig W t (.self spec) pk s

/-- The signatures of the transaction itself are all there and genuine, and its mint fulfillment, if it has one, unlocks the mint
condition. -/
def ExtensionSigned (W : World) (t : Tx) : Prop :=
  (∀ p ∈ selfSignatures t, ∃ k s, p.2 = (some k, some s) ∧ SelfSigned W t p.1 k s) ∧
  ∀ p, mintPart t = some p → ∃ c f, p = (some c, some f) ∧ Unlocks W t .mint c f

/-- The transaction carries all signatures it needs, and they are genuine. -/
def FullySigned (W : World) (t : Tx) : Prop := InputsUnlocked W t ∧ ExtensionSigned W t

/-! ## Transactions up to signatures -/

/-- The contents of a coin input apart from its signatures. -/
def bareInput (ci : CoinInput) : CoinInput := { ci with fulfillment := .multi [] }
@[inherit_doc bareInput] def bareStake (ci : StakeInput) : StakeInput := { ci with fulfillment := .multi [] }
/-- An output without the id that is filled in once it is known. -/
def bareOutput (co : CoinOutput) : CoinOutput := { co with id := ⟨[]⟩ }

/-- Everything in a transaction apart from its signatures (and the ids filled in in its own outputs). -/
def bare : Tx → Tx
  | .v1 t => .v1 { t with coinInputs := t.coinInputs.map bareInput, stakeInputs := t.stakeInputs.map bareStake, coinOutputs := t.coinOutputs.map bareOutput }
  | .v128 t => .v128 { t with mintFulfillment := none }
  | .v129 t => .v129 { t with mintFulfillment := none, coinOutputs := t.coinOutputs.map bareOutput }
  | .v144 t => .v144 { t with coinInputs := t.coinInputs.map bareInput, refund := t.refund.map bareOutput, sig := none }
  | .v145 t => .v145 { t with coinInputs := t.coinInputs.map bareInput, refund := t.refund.map bareOutput, sig := none }
  | .v146 t => .v146 { t with coinInputs := t.coinInputs.map (·.map bareInput), refund := t.refund.map bareOutput, senderSig := none, receiverSig := none }
  | .v208 t => .v208 { t with coinInputs := t.coinInputs.map bareInput, refund := t.refund.map bareOutput }
  | .v209 t => .v209 t
  | .v210 t => .v210 { t with coinInputs := t.coinInputs.map (·.map bareInput), refund := t.refund.map bareOutput, sig := none }

/-! ## Where a remainder goes -/

/-- The source argument is the single address `u`. -/
def SingleSource (H : Bytes → Bytes) (src : Source) (u : UnlockHash) : Prop :=
  (∃ s, src = .one s ∧ ArgNames H s u) ∨ ∃ s, src = .list [s] ∧ ArgNames H s u

/-- The condition that receives the remainder of a payment: the refund recipient if one is given; else the single source address itself
(for a multi-signature address its known owners and number of signatures); else the primary address of the wallet. -/
inductive RefundTo (W : World) (w : Wallets) (src : Source) : Recipient → Condition → Prop
  | given (r : Recipient) (c : Condition) (some : r ≠ .none) (to : fromRecipient W.H r .none = .ok c) : RefundTo W w src r c
  | source (u : UnlockHash) (single : SingleSource W.H src u) (personal : u.type = 1) : RefundTo W w src .none (.unlockHash u)
  | multi (u : UnlockHash) (m : MultiBalance) (c : Condition) (single : SingleSource W.H src u) (ms : u.type = 3)
      (known : w.wallets.get? (u.str W.H) = some m) (to : multiSigNew W.H (m.owners.map fun o => .str (o.str W.H)) (.int m.required) = .ok c) :
      RefundTo W w src .none c
  | primary (u : UnlockHash) (none : ∀ v, SingleSource W.H src v → v.type = 3 ∧ w.wallets.get? (v.str W.H) = .none)
      (to : UnlockHash.fromJson W.H (.str W.keys.primary) = .ok u) : RefundTo W w src .none (.unlockHash u)

/-! ## What a payment is -/

/-- The bytes of the `data` argument. -/
def payload : DataArg → Option Bytes
  | .none => some []
  | .str s => some (utf8 s)
  | .bytes b => some b
  | .data d => some d.value
  | .other => none

/-- The transaction pays exactly `pays` (amount in smallest units, to whom), in this order, and after them at most one more output, which
returns a positive remainder to the refund condition; it spends outputs eligible for the given source, at most 99; and what it spends is
what it pays plus the miner fee. -/
structure IsPayment (W : World) (w : Wallets) (pays : List (Nat × Condition)) (src : Source) (refund : Recipient) (data : DataArg) (t : Tx) :
    Prop where
  standard : ∃ v, t = .v1 v ∧ v.stakeInputs = [] ∧ v.stakeOutputs = [] ∧ v.legacy = false ∧ payload data = some v.data
  outputs : ∃ rest : List (Nat × Condition), t.coinOutputs.map (fun co => (amount co.value, co.condition)) = pays ++ rest ∧
    (rest = [] ∨ ∃ n c, rest = [(n, c)] ∧ 0 < n ∧ RefundTo W w src refund c)
  fee : t.minerFees.map amount = [amount W.fee]
  inputs : ∃ l, t.coinInputs = some l ∧ l.length ≤ 99 ∧ (∀ ci ∈ l, ∃ co, Eligible W.H w src co ∧ ci.parentId = co.id ∧ ci.parent = some co) ∧
    inputsTotal l = total t.coinOutputs + amount W.fee

/-- What a request to pay an amount to a recipient asks for: the amount in smallest units and to whom; nothing if the amount is not a
positive amount or the recipient is no recipient. -/
def asked (H : Bytes → Bytes) (r : Recipient) (amt : CVal) (lock : LockVal) : Option (Nat × Condition) :=
  match Currency.set amt, fromRecipient H r lock with
  | .ok a, .ok c => if 0 < amount a then some (amount a, c) else none
  | _, _ => none

/-- The operation handed the transaction to the network or returned it. -/
def Produces (o : Outcome (Tx × Bool)) (t : Tx) : Prop := t ∈ o.posted ∨ ∃ b, o.result = .ok (t, b)

/-- A transaction that costs `extra` besides the miner fee: it spends outputs eligible for the given source, at most 99, has at most one
coin output, which returns a positive remainder to the refund condition; and what it spends is the cost, the fee and the remainder. -/
structure IsFunded (W : World) (w : Wallets) (extra : Nat) (src : Source) (refund : Recipient) (t : Tx) : Prop where
  fee : t.minerFees.map amount = [amount W.fee]
  outputs : t.coinOutputs = [] ∨ ∃ co, t.coinOutputs = [co] ∧ 0 < amount co.value ∧ RefundTo W w src refund co.condition
  inputs : ∃ l, t.coinInputs = some l ∧ l.length ≤ 99 ∧ (∀ ci ∈ l, ∃ co, Eligible W.H w src co ∧ ci.parentId = co.id ∧ ci.parent = some co) ∧
    inputsTotal l = extra + amount W.fee + total t.coinOutputs

/-- The operation submits transactions exactly when they are completely signed: it posts at most one transaction, only with all signatures;
it returns `True` together with the transaction (now with the ids of its own outputs) iff it posted it; it returns `False` only with a
transaction that lacks signatures. -/
structure SubmitsSigned (W : World) (o : Outcome (Tx × Bool)) : Prop where
  once : o.posted.length ≤ 1
  signed : ∀ t ∈ o.posted, FullySigned W t
  yes : ∀ t, o.result = .ok (t, true) → ∃ t', o.posted = [t'] ∧ bare t = bare t'
  no : ∀ t, o.result = .ok (t, false) → o.posted = [] ∧ ¬ FullySigned W t

end TF.Spec
