import Verif.Spec.Payment
import Verif.Spec.Encoding
import Verif.Model.Keys
/-! # The keys of a seed -/
namespace TF.Spec

/-- Key number `i` of a seed: the ed25519 key of the digest of the seed followed by `i` as eight little-endian bytes. -/
def SeedKey (H derive : Bytes → Bytes) (seed : Bytes) (i : Nat) (k : PublicKey) : Prop :=
  ∃ bs : Bytes, bs.length = 8 ∧ leValue bs = i ∧ k = ⟨.ed25519, ⟨derive (H (seed ++ bs))⟩⟩

/-- `a` is the address of key number `i`. -/
def SeedAddress (H derive : Bytes → Bytes) (seed : Bytes) (i : Nat) (a : Str) : Prop := ∃ k, SeedKey H derive seed i k ∧ HasAddress H k a

/-- The explorers know key number `i`: its address has a history. -/
def Used (H derive : Bytes → Bytes) (active : Str → Res Bool) (seed : Bytes) (i : Nat) : Prop :=
  ∃ a, SeedAddress H derive seed i a ∧ active a = .ok true

/-- The wallet has key number `i`. -/
def HasKey (H derive : Bytes → Bytes) (s : Keys) (i : Nat) : Prop := ∃ k a, SeedKey H derive s.seed i k ∧ HasAddress H k a ∧ (a, k) ∈ s.pairs

/-- A scan looks at blocks of `n` keys, from number `start` on, and at the next block only if the last key of the block before is used: the
key numbers it looks at. -/
def LookedAt (used : Nat → Prop) (start n i : Nat) : Prop := start ≤ i ∧ ∀ r, start + (r + 1) * n ≤ i → used (start + (r + 1) * n - 1)

/-- No two keys of the seed have the same address. -/
def DistinctAddresses (H derive : Bytes → Bytes) (seed : Bytes) : Prop :=
  ∀ i j a, SeedAddress H derive seed i a → SeedAddress H derive seed j a → i = j

/-- What happens to the keys of a wallet: a key is asked for, or the explorers are asked (`active` are their answers at that time), with or
without an exception. -/
inductive KeyStep (H derive : Bytes → Bytes) (s : Keys) : Keys → Prop
  | new (s' : Keys) (k : PublicKey) (h : s.new1 H derive = .ok (s', k)) : KeyStep H derive s s'
  | scan (active : Str → Res Bool) (fuel : Nat) (s' : Keys) (r : Res Unit) (h : s.scan H derive active fuel = some (s', r)) : KeyStep H derive s s'

/-- Any number of these steps. -/
inductive KeySteps (H derive : Bytes → Bytes) (s : Keys) : Keys → Prop
  | refl : KeySteps H derive s s
  | step {s1 s2 : Keys} (h : KeySteps H derive s s1) (h' : KeyStep H derive s1 s2) : KeySteps H derive s s2

end TF.Spec
