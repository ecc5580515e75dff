import Verif.Model.Merkle
import Verif.Spec.Merkle
/-! Lemmas for the Merkle tree. -/
namespace TF
open Spec

theorem log2_of_range {a m : Nat} (h1 : 1 ≤ m) (h2 : m ≤ 2^a) : Nat.log2 (2^a + m - 1) = a := by
  have hne : 2^a + m - 1 ≠ 0 := by have := Nat.two_pow_pos a; omega
  rw [Nat.log2_eq_iff hne]
  have := Nat.two_pow_pos a
  rw [Nat.pow_succ]; omega

theorem merkle_split (H : Bytes → Bytes) (A B : List Bytes) (a : Nat) (hA : A.length = 2^a)
    (hB : 1 ≤ B.length) (hB' : B.length ≤ 2^a) :
    merkle H (A ++ B) = nodeSum H (merkle H A) (merkle H B) := by
  have hp := Nat.two_pow_pos a
  conv => lhs; rw [merkle]
  have hl : 2 ≤ (A ++ B).length := by simp; omega
  have hk : splitPoint (A ++ B).length = A.length := by
    unfold splitPoint; rw [List.length_append, hA, log2_of_range hB hB']
  rw [dif_pos hl]
  simp only [hk, List.take_left, List.drop_left]
  rfl

theorem merkle_single (H : Bytes → Bytes) (x : Bytes) : merkle H [x] = leafSum H x := by
  rw [merkle]; simp [leafSum]

/-- The stack represents the leaves: each subtree is the root of its own block of `2^height` leaves, heights increase. -/
def StackInv (H : Bytes → Bytes) : List SubTree → List Bytes → Prop
  | [], leaves => leaves = []
  | t :: rest, leaves => ∃ A B, leaves = A ++ B ∧ B.length = 2^t.height ∧ t.sum = merkle H B ∧
      (∀ s, rest.head? = some s → t.height < s.height) ∧ StackInv H rest A

theorem collapse_inv (H : Bytes → Bytes) (rest : List SubTree) : ∀ (t : SubTree) (A B : List Bytes),
    B.length = 2^t.height → t.sum = merkle H B → (∀ s, rest.head? = some s → t.height ≤ s.height) → StackInv H rest A →
    StackInv H (collapse H t rest) (A ++ B) := by
  induction rest with
  | nil =>
    intro t A B hB ht _ hA
    exact ⟨A, B, rfl, hB, ht, by simp, hA⟩
  | cons n rest ih =>
    intro t A B hB ht hh hA
    unfold collapse
    split
    · rename_i heq
      obtain ⟨A', B', rfl, hB', hn, hlt, hA'⟩ := hA
      rw [List.append_assoc]
      apply ih _ _ _ _ _ _ hA'
      · simp [joinSubtree, hB, hB', heq, Nat.pow_succ]; omega
      · simp only [joinSubtree]
        rw [merkle_split H B' B n.height hB' (by rw [hB]; exact Nat.two_pow_pos _) (by rw [hB, heq]; exact Nat.le_refl _), hn, ht]
      · intro s hs; have := hlt s hs; simp only [joinSubtree]; omega
    · rename_i hne
      refine ⟨A, B, rfl, hB, ht, ?_, hA⟩
      intro s hs
      simp only [List.head?_cons, Option.some.injEq] at hs
      subst hs
      have := hh n (by simp); omega

theorem push_inv (H : Bytes → Bytes) (st : List SubTree) (leaves : List Bytes) (d : Bytes) (h : StackInv H st leaves) :
    StackInv H (merklePush H st d) (leaves ++ [d]) := by
  unfold merklePush
  apply collapse_inv H st ⟨0, leafSum H d⟩ leaves [d] (by simp) (by rw [merkle_single]) (by intros; exact Nat.zero_le _) h

theorem pushAll_inv (H : Bytes → Bytes) (leaves : List Bytes) : StackInv H (merklePushAll H leaves) leaves := by
  have gen : ∀ (ls : List Bytes) st done, StackInv H st done → StackInv H (ls.foldl (merklePush H) st) (done ++ ls) := by
    intro ls
    induction ls with
    | nil => intro st done h; simpa using h
    | cons l ls ih =>
      intro st done h
      have := ih _ _ (push_inv H st done l h)
      simpa using this
  simpa [merklePushAll] using gen leaves [] [] rfl

theorem foldRoot_inv (H : Bytes → Bytes) (rest : List SubTree) : ∀ (t : SubTree) (A B : List Bytes),
    t.sum = merkle H B → 1 ≤ B.length → (∀ s, rest.head? = some s → B.length ≤ 2^s.height) → StackInv H rest A →
    merkleFoldRoot H t rest = merkle H (A ++ B) := by
  induction rest with
  | nil =>
    intro t A B ht _ _ hA
    simp only [StackInv] at hA
    simp [merkleFoldRoot, hA, ht]
  | cons n rest ih =>
    intro t A B ht h1 hh hA
    obtain ⟨A', B', rfl, hB', hn, hlt, hA'⟩ := hA
    have hle := hh n (by simp)
    unfold merkleFoldRoot
    rw [List.append_assoc]
    apply ih
    · simp only [joinSubtree]
      rw [merkle_split H B' B n.height hB' h1 hle, hn, ht]
    · simp; omega
    · intro s hs
      have := hlt s hs
      have h2 : 2 ^ (n.height + 1) ≤ 2 ^ s.height := Nat.pow_le_pow_right (by decide) this
      simp only [List.length_append, hB']
      rw [Nat.pow_succ] at h2; omega
    · exact hA'

/-- Strictly increasing list of naturals. -/
def StrictIncr : List Nat → Prop
  | [] => True
  | h :: hs => (∀ x ∈ hs, h < x) ∧ StrictIncr hs

theorem stackInv_heights (H : Bytes → Bytes) (st : List SubTree) : ∀ leaves, StackInv H st leaves →
    StrictIncr (st.map (·.height)) ∧ ((st.map (fun t => 2^t.height)).sum = leaves.length) := by
  induction st with
  | nil => intro leaves h; simp only [StackInv] at h; simp [StrictIncr, h]
  | cons t rest ih =>
    rintro leaves ⟨A, B, rfl, hB, -, hlt, hA⟩
    obtain ⟨h1, h2⟩ := ih A hA
    refine ⟨⟨?_, h1⟩, by simp [h2, hB]; omega⟩
    intro x hx
    cases rest with
    | nil => simp at hx
    | cons s rest =>
      have := hlt s (by simp)
      simp only [List.map_cons, List.mem_cons] at hx
      rcases hx with rfl | hx
      · exact this
      · simp only [List.map_cons, StrictIncr] at h1
        exact Nat.lt_trans this (h1.1 x hx)

theorem strictIncr_dvd (hs : List Nat) (k : Nat) (h : ∀ x ∈ hs, k ≤ x) : 2^k ∣ (hs.map (2^·)).sum := by
  induction hs with
  | nil => simp
  | cons x hs ih =>
    simp only [List.map_cons, List.sum_cons]
    exact Nat.dvd_add (Nat.pow_dvd_pow 2 (h x (by simp))) (ih (fun y hy => h y (by simp [hy])))

theorem strictIncr_testBit (hs : List Nat) (h : StrictIncr hs) (i : Nat) :
    i ∈ hs ↔ ((hs.map (2^·)).sum).testBit i = true := by
  induction hs with
  | nil => simp
  | cons x hs ih =>
    obtain ⟨h1, h2⟩ := h
    obtain ⟨m, hm⟩ := strictIncr_dvd hs (x+1) h1
    have : ((x :: hs).map (2^·)).sum = 2^(x+1) * m ||| 2^x := by
      simp only [List.map_cons, List.sum_cons, hm]
      rw [← Nat.two_pow_add_eq_or_of_lt (Nat.pow_lt_pow_right (by decide) (Nat.lt_succ_self x)), Nat.add_comm]
    rw [this, Nat.testBit_or, ← hm]
    simp only [List.mem_cons, Bool.or_eq_true, ← ih h2, Nat.testBit_two_pow, decide_eq_true_eq]
    constructor
    · rintro (rfl | h)
      · exact .inr rfl
      · exact .inl h
    · rintro (h | rfl)
      · exact .inr h
      · exact .inl rfl

theorem strictIncr_length (hs : List Nat) (h : StrictIncr hs) (b : Nat) (hb : ∀ x ∈ hs, x < b) : hs.length ≤ b := by
  have gen : ∀ (hs : List Nat) (k : Nat), StrictIncr hs → (∀ x ∈ hs, k ≤ x) → (∀ x ∈ hs, x < b) → k ≤ b → hs.length + k ≤ b := by
    intro hs
    induction hs with
    | nil => intro k _ _ _ h; simpa using h
    | cons x hs ih =>
      intro k hs' hk hb _
      have hxb := hb x (by simp)
      have hkx := hk x (by simp)
      have := ih (x+1) hs'.2 hs'.1 (fun y hy => hb y (by simp [hy])) (by omega)
      simp only [List.length_cons]; omega
  simpa using gen hs 0 h (by simp) hb (Nat.zero_le _)

end TF
