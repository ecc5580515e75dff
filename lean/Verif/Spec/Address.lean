import Verif.Model.Crypto
/-! # What a proper address and a proper condition are -/
namespace TF.Spec

/-- An address whose hash has been given its 32 bytes (the default `UnlockHash()` has an empty one). -/
def FullAddress (u : UnlockHash) : Prop := u.hash.value.length = 32

/-- The addresses the chain knows: public key, atomic swap and multi-signature addresses with a 32-byte hash, and the nil
address with a zero hash. -/
def CanonicalAddress (u : UnlockHash) : Prop :=
  (u.type ∈ [1, 2, 3] ∧ u.hash.value.length = 32) ∨ (u.type = 0 ∧ u.hash.value = List.replicate 32 0)

/-- A condition all of whose hashes have been given their 32 bytes. -/
def FullCondition : Condition → Prop
  | .nil => True
  | .unlockHash u => FullAddress u
  | .atomicSwap s r hs _ => FullAddress s ∧ FullAddress r ∧ ∃ b, hs = some b ∧ b.length = 32
  | .lockTime _ c => FullCondition c
  | .multiSig owners _ => ∀ u ∈ owners, FullAddress u

/-- The conditions the chain accepts: canonical addresses; swap parties are wallets (or nil), a swap has a 32-byte secret hash and
a time stamp; a time lock is non-negative and wraps a nil, wallet or multi-signature condition. -/
def CanonicalCondition : Condition → Prop
  | .nil => True
  | .unlockHash u => CanonicalAddress u
  | .atomicSwap s r hs t => (CanonicalAddress s ∧ s.type ∈ [0, 1]) ∧ (CanonicalAddress r ∧ r.type ∈ [0, 1]) ∧
      (∃ b, hs = some b ∧ b.length = 32) ∧ 500000000 ≤ t
  | .lockTime l c => 0 ≤ l ∧ c.type ∈ [0, 1, 4] ∧ CanonicalCondition c
  | .multiSig owners _ => ∀ u ∈ owners, CanonicalAddress u

/-- The hash function yields 32-byte digests (as blake2b-256 does). -/
def Digest32 (H : Bytes → Bytes) : Prop := ∀ x, (H x).length = 32

/-- Lower-case a text. -/
def lower (s : Str) : Str := s.map Char.toLower

end TF.Spec
