import Verif.Model.Py
/-! # Independent specification of the Merkle root (RFC 6962 style). -/
namespace TF.Spec

/-- The largest power of two strictly below `n` (for `n ≥ 2`). -/
def splitPoint (n : Nat) : Nat := 2 ^ Nat.log2 (n - 1)

theorem splitPoint_lt {n : Nat} (h : 2 ≤ n) : splitPoint n < n := by
  unfold splitPoint
  have := Nat.log2_self_le (n := n - 1) (by omega)
  omega

/-- Recursive Merkle root: one leaf hashes to `H(00 ‖ leaf)`, more leaves split at the largest power of two strictly below
their number and hash to `H(01 ‖ left ‖ right)`. -/
def merkle (H : Bytes → Bytes) (leaves : List Bytes) : Bytes :=
  if _h : 2 ≤ leaves.length then
    let k := splitPoint leaves.length
    H (1 :: (merkle H (leaves.take k) ++ merkle H (leaves.drop k)))
  else match leaves with
    | [] => H []
    | x :: _ => H (0 :: x)
termination_by leaves.length
decreasing_by
  · simp only [List.length_take]; have := splitPoint_lt _h; omega
  · simp only [List.length_drop]
    have : 0 < splitPoint leaves.length := Nat.two_pow_pos _
    omega

end TF.Spec
