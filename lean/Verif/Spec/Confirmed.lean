import Verif.Spec.Ops
import Verif.Spec.Swap
/-! # What a returned result says about the submission -/
namespace TF.Spec

/-- At most one transaction is handed to the network, and if the operation returns instead of raising, the explorers confirmed it. -/
def Confirmed {α : Type} (W : World) (o : Outcome α) : Prop :=
  o.posted = [] ∨ ∃ t, o.posted = [t] ∧ ∀ a, o.result = .ok a → ∃ id, W.put t = .ok id

/-- What can make a claim raise after its submission: the balance cannot be computed, or something listed in `Trouble`. -/
def ClaimRaisesBefore (W : SwapWorld) (o : Outcome Tx) : Prop :=
  ∀ e, o.result = .error e → o.posted = [] ∨ ∃ t, o.posted = [t] ∧ (W.balance = .error e ∨ W.put t = .error e ∨ ∃ w, W.balance = .ok w ∧ Trouble W.toWorld w t)

end TF.Spec
