import Verif.Spec.Live
import Verif.Spec.Swap
/-! # Contracts that can be claimed -/
namespace TF.Spec

/-- The contract fits the wire format: identifier and addresses have at most 32 bytes, the amount is legal and below 10^28 smallest units, and no
party is the address of the missing key. -/
structure FittingContract (W : World) (c : Contract) : Prop where
  id : HashFits c.id
  sender : HashFits c.sender.hash
  receiver : HashFits c.receiver.hash
  sane : SaneAmount c.amount
  present : ¬ HasAddress W.H .default (c.sender.str W.H) ∧ ¬ HasAddress W.H .default (c.receiver.str W.H)

/-- The address to which a remainder goes can be the sender of a contract: it is a personal address, or a condition for which the readable primary address
stands in. -/
structure GoodRefunder (W : World) (w : Wallets) (src : Source) (refund : Recipient) : Prop where
  personal : ∀ u, RefundTo W w src refund (.unlockHash u) → u.type = 0 ∨ u.type = 1
  other : ∀ c, RefundTo W w src refund c → (∀ u, c ≠ .unlockHash u) → ∃ s, Names W.H W.keys.primary s ∧ (s.type = 0 ∨ s.type = 1) ∧ HashFits s.hash

/-- The operation makes a contract: it is submitted exactly if the wallet has the keys for all inputs, and returned unsubmitted otherwise. -/
def ContractIfKeys (W : World) (o : Outcome (Contract × Tx × Bool)) : Prop :=
  ∃ t l, t.coinInputs = some l ∧ (KeysSuffice W l ∧ o.posted = [t] ∨ ¬ KeysSuffice W l ∧ o.posted = [] ∧ ∃ c, o.result = .ok (c, t, false))

end TF.Spec
