import Verif.Model.Compare
import Verif.Spec.Amount
import Verif.Spec.Address
/-! # What the comparison operators mean -/
namespace TF.Spec

/-- The order of whole numbers of smallest units an operator stands for. -/
def InOrder : CmpOp → Nat → Nat → Prop
  | .lt, a, b => a < b
  | .le, a, b => a ≤ b
  | .eq, a, b => a = b
  | .ne, a, b => a ≠ b
  | .gt, a, b => b < a
  | .ge, a, b => b ≤ a

/-- An answer, and that it is right. -/
def Says (r : Res Bool) (p : Prop) : Prop := ∃ b, r = .ok b ∧ (b = true ↔ p)

/-- Binary data in a legal state: empty or of its fixed size (which is not zero). -/
def SoundData (d : BinData) : Prop := ∀ n, d.fixed = some n → n ≠ 0 ∧ (d.value = [] ∨ d.value.length = n)

/-- Bytes that data of a size can hold. -/
def FitsIn (fixed : Option Nat) (b : Bytes) : Prop := ∀ n, fixed = some n → b = [] ∨ b.length = n

end TF.Spec
