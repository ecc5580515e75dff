import Verif.Spec.Encodable
import Verif.Spec.Payment
import Verif.Spec.Signing
/-! # When a wallet can sign a transaction -/
namespace TF.Spec

/-- The keys of a wallet are 32-byte keys, each filed under its own address, and signatures have 64 bytes. -/
structure GoodKeys (W : World) : Prop where
  filed : ∀ a k, W.keys.lookup a = some k → HasAddress W.H k a
  full : ∀ a k, W.keys.lookup a = some k → FullKey k
  sig : ∀ k b, (W.sign k b).length = 64

/-- The wallet's keys for the given addresses (the primary key for a free-for-all address), in order. -/
def heldKeys (W : World) (us : List UnlockHash) : List PublicKey := us.filterMap fun u => W.keys.get? (u.str W.H)

/-- The wallet has the keys that unlock the condition: the key of the owner, as many owner keys as signatures are required, the key of one of
the two parties of an atomic swap. Time locks do not matter: that they have passed is for the network to check. -/
def Unlockable (W : World) (c : Condition) : Prop :=
  match c.unwrap with
  | .nil => heldKeys W [.default] ≠ []
  | .unlockHash u => heldKeys W [u] ≠ []
  | .multiSig os n => n ≤ (heldKeys W os).length
  | .atomicSwap s r _ _ => heldKeys W [s, r] ≠ []
  | .lockTime .. => False

/-- A condition as the network allows it: a time lock is no lock of a time lock or an atomic swap; a multi-signature condition has at least one owner, at most 2^20 of them and no
two owners for which the wallet has the same key; no party of the condition is the address of the missing key. -/
def Ordinary (W : World) (c : Condition) : Prop :=
  match c.unwrap with
  | .nil => True
  | .unlockHash u => ¬ HasAddress W.H .default (u.str W.H)
  | .multiSig os _ => os ≠ [] ∧ (heldKeys W os).Nodup ∧ Few os
  | .atomicSwap s r _ _ => c = c.unwrap ∧ ¬ HasAddress W.H .default (s.str W.H) ∧ ¬ HasAddress W.H .default (r.str W.H)
  | .lockTime .. => False

/-- The input carries no signature yet, and a fulfillment of the kind its condition asks for. -/
def FreshFor (c : Condition) : Fulfillment → Prop
  | .single k s => k = .default ∧ s = none ∧ (c.unwrap = .nil ∨ ∃ u, c.unwrap = .unlockHash u)
  | .multi ps => ps = [] ∧ ∃ os n, c.unwrap = .multiSig os n
  | .swap k s _ => k = .default ∧ s = none ∧ ∃ a b h l, c = .atomicSwap a b h l

/-- A standard transaction or a conversion to ERC20 coins, ready to be signed: it fits the wire format, it spends at least one coin output and no
blockstakes, and every input knows the output it spends and is not signed yet. -/
structure ReadyToSign (L : IpLib) (W : World) (t : Tx) (l : List CoinInput) : Prop where
  kind : (∃ v, t = .v1 v ∧ v.stakeInputs = []) ∨ ∃ v, t = .v208 v
  fits : TxFits L t
  inputs : t.coinInputs = some l
  nonempty : l ≠ []
  fresh : ∀ ci ∈ l, ∃ co, ci.parent = some co ∧ Ordinary W co.condition ∧ FreshFor co.condition ci.fulfillment

/-- The wallet has the keys for every input. -/
def KeysSuffice (W : World) (l : List CoinInput) : Prop := ∀ ci ∈ l, ∀ co, ci.parent = some co → Unlockable W co.condition

/-! ## Payments -/

/-- The source argument can be used: it names personal or multi-signature addresses; a list of one text is not supported; a multi-signature address that
stands alone has a legal condition, to which a remainder goes. -/
def ReadableSource (H : Bytes → Bytes) (w : Wallets) (src : Source) : Prop :=
  (∀ s, src = .one s ∨ (∃ l, src = .list l ∧ s ∈ l) → ∃ u, ArgNames H s u ∧ (u.type = 1 ∨ u.type = 3)) ∧ (∀ s, src ≠ .list [.str s]) ∧
    ∀ u m, SingleSource H src u → w.wallets.get? (u.str H) = some m →
      ∃ c, multiSigNew H (m.owners.map fun o => .str (o.str H)) (.int m.required) = .ok c

/-- The balance of a wallet as the code keeps it: outputs are filed by address, their amounts are legal and add up to less than 10^28 smallest units,
their ids fit and their conditions are ordinary ones. -/
structure GoodBalance (W : World) (w : Wallets) : Prop where
  filed : WellFiled W.H w
  sane : SaneOutputs (walletsSpendable w)
  ordinary : ∀ co ∈ walletsSpendable w, HashFits co.id ∧ Ordinary W co.condition

/-- At most 99 different outputs eligible for the source reach the amount. -/
def Affordable (W : World) (w : Wallets) (src : Source) (n : Nat) : Prop :=
  ∃ s : List CoinOutput, s.Nodup ∧ s.length ≤ 99 ∧ (∀ co ∈ s, Eligible W.H w src co) ∧ n ≤ total s

/-- The source does not ask for multi-signature outputs, or it is one multi-signature wallet, or the wallets offer at most 99 outputs altogether.
(For others, what can be afforded may be missed, C54.) -/
def SimpleSource (H : Bytes → Bytes) (w : Wallets) (src : Source) : Prop :=
  (∀ u, src ≠ .none → Asked H src u → u.type ≠ 3) ∨ (walletsSpendable w).length ≤ 99 ∨ OneMultiSource H w src

/-- A remainder can be returned: the refund argument is a recipient (if it is left out, the primary address is readable), and wherever the remainder may go fits
the wire format. -/
structure GoodRefund (W : World) (w : Wallets) (src : Source) (refund : Recipient) : Prop where
  primary : refund = .none → ∃ u, Names W.H W.keys.primary u
  given : refund ≠ .none → ∃ c, fromRecipient W.H refund .none = .ok c
  fits : ∀ c, RefundTo W w src refund c → ConditionFits c

/-- The operation produces a transaction: it is submitted exactly if the wallet has the keys for all its inputs, and returned unsubmitted, to be
signed by others, exactly if not. -/
def SubmitsIfKeys (W : World) (o : Outcome (Tx × Bool)) : Prop :=
  ∃ t l, t.coinInputs = some l ∧ (KeysSuffice W l ∧ o.posted = [t] ∨ ¬ KeysSuffice W l ∧ o.posted = [] ∧ o.result = .ok (t, false))

end TF.Spec
