import Verif.Lemmas.Merkle
/-!
# Properties C07–C09: crypto/merkletree.py
-/
namespace TF.Props
open TF Spec

/-- **C07**. For every hash function and every non-empty sequence of leaves, pushing them one by one and asking for the root
gives the recursively defined Merkle root. -/
theorem C07_merkle_root (H : Bytes → Bytes) (leaves : List Bytes) (hne : leaves ≠ []) :
    merkleRoot H (merklePushAll H leaves) = .ok (merkle H leaves) := by
  have inv := pushAll_inv H leaves
  cases hst : merklePushAll H leaves with
  | nil => rw [hst] at inv; exact absurd inv hne
  | cons t rest =>
    rw [hst] at inv
    obtain ⟨A, B, rfl, hB, ht, hlt, hA⟩ := inv
    simp only [merkleRoot]
    rw [foldRoot_inv H rest t A B ht (by rw [hB]; exact Nat.two_pow_pos _) ?_ hA]
    intro s hs
    rw [hB]; exact Nat.pow_le_pow_right (by decide) (Nat.le_of_lt (hlt s hs))

/-- **C08**. After pushing `n` leaves the stack holds exactly one subtree per set bit of `n`, in strictly increasing height
order from the top, hence at most `log2 n + 1` of them. -/
theorem C08_merkle_stack (H : Bytes → Bytes) (leaves : List Bytes) :
    (∀ h, h ∈ (merklePushAll H leaves).map (·.height) ↔ leaves.length.testBit h = true) ∧
    ((merklePushAll H leaves).map (·.height)).Pairwise (· < ·) ∧
    (merklePushAll H leaves).length ≤ Nat.log2 leaves.length + 1 := by
  obtain ⟨h1, h2⟩ := stackInv_heights H _ _ (pushAll_inv H leaves)
  have h2' : (((merklePushAll H leaves).map (·.height)).map (2^·)).sum = leaves.length := by
    rw [← h2, List.map_map]; rfl
  have tb := fun i => strictIncr_testBit _ h1 i
  rw [h2'] at tb
  refine ⟨tb, ?_, ?_⟩
  · have : ∀ l, StrictIncr l → l.Pairwise (· < ·) := by
      intro l; induction l with
      | nil => intro _; exact .nil
      | cons x l ih => intro h; exact .cons h.1 (ih h.2)
    exact this _ h1
  · have := strictIncr_length _ h1 (Nat.log2 leaves.length + 1) (by
      intro x hx
      have ht := (tb x).1 hx
      have hge := Nat.ge_two_pow_of_testBit ht
      have hne : leaves.length ≠ 0 := by have := Nat.two_pow_pos x; omega
      have := (Nat.le_log2 hne).2 hge
      omega)
    simpa using this

/-- **C09** (finding). `root()` of an empty tree raises `TypeError` for every hash function: the branch calls the built-in
`sum` instead of the helper `sum_`. So the claimed value `H(b"")` is never returned. -/
theorem C09_empty_root_raises (H : Bytes → Bytes) :
    merkleRoot H (merklePushAll H []) = .error .typeError ∧ ¬ (merkleRoot H (merklePushAll H []) = .ok (H [])) := by
  constructor
  · rfl
  · intro h; cases h

/-- **C09** (what holds): the empty tree is the only one whose root raises. -/
theorem C09_root_defined_iff_nonempty_partial (H : Bytes → Bytes) (leaves : List Bytes) :
    (∃ r, merkleRoot H (merklePushAll H leaves) = .ok r) ↔ leaves ≠ [] := by
  constructor
  · rintro ⟨r, h⟩ rfl; cases h
  · intro h; exact ⟨_, C07_merkle_root H leaves h⟩

example : ([[1], [2], [3]] : List Bytes) ≠ [] := by decide
/-- With an (injective, toy) hash the shape of the three-leaf tree is visible. -/
example : merkleRoot (fun b => 77 :: b) (merklePushAll (fun b => 77 :: b) [[1], [2], [3]]) =
    .ok [77, 1, 77, 1, 77, 0, 1, 77, 0, 2, 77, 0, 3] := by decide
example : (merklePushAll (fun b => b) [[1],[2],[3],[4],[5],[6],[7],[8],[9],[10],[11]]).map (·.height) = [0, 1, 3] := by decide

end TF.Props
