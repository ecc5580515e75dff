import Verif.Lemmas.Address
import Verif.Props.Merkle
/-!
# Properties C21–C30: addresses, keys and conditions (types/CryptoTypes.py, types/ConditionTypes.py)

`H` ranges over all hash functions; `Digest32 H` says its digests are 32 bytes long.
-/
namespace TF.Props
open TF Spec

/-- A computable stand-in for blake2b used only to exhibit concrete instances. -/
def toyHash (b : Bytes) : Bytes := toBytesLE 32 (b.foldl (fun a x => a * 257 + x.toNat + 1) 0)

theorem toyHash_digest : Digest32 toyHash := fun x => by simp [toyHash]

/-! ## Public keys -/

/-- **C21** (what holds). A key with a 32-byte payload survives printing and parsing; and whatever non-empty text is accepted
consists of a known algorithm name, one colon and a payload that is a valid hash text. -/
theorem C21_public_key_text_partial :
    (∀ k : PublicKey, k.hash.value.length = 32 → PublicKey.fromStr k.str = .ok k ∧ PublicKey.fromJson (.str k.str) = .ok k) ∧
    (∀ (s : Str) (k : PublicKey), s ≠ [] → PublicKey.fromStr s = .ok k →
      ∃ p, s = k.spec.str ++ ':' :: p ∧ ':' ∉ p ∧ Hash.fromJson p = .ok k.hash) := by
  constructor
  · intro k hk
    have hne : k.str ≠ [] := by simp [PublicKey.str]
    have hspec : ∀ c ∈ k.spec.str, c ≠ ':' := by
      have : ∀ sp : KeySpec, ':' ∉ sp.str := by intro sp; cases sp <;> decide
      intro c hc h
      exact this _ (h ▸ hc)
    have hhash : ':' ∉ k.hash.str := by
      rw [hash_str_full hk]
      intro hmem
      simp only [toHex, List.mem_flatMap] at hmem
      obtain ⟨x, -, hx⟩ := hmem
      have : ∀ y : Fin 16, ':' ≠ Nat.digitChar y.val := by decide
      have h1 := this ⟨x.toNat / 16, by have := x.toNat_lt; omega⟩
      have h2 := this ⟨x.toNat % 16, by omega⟩
      simp only [List.mem_cons, List.not_mem_nil, or_false] at hx
      rcases hx with hx | hx
      · exact h1 hx
      · exact h2 hx
    have hcnt : k.str.count ':' = 1 := by
      unfold PublicKey.str
      rw [List.count_append, List.count_cons, List.count_eq_zero_of_not_mem (fun h => hspec _ h rfl),
        List.count_eq_zero_of_not_mem hhash]; simp
    have htw : k.str.takeWhile (· ≠ ':') = k.spec.str := by
      unfold PublicKey.str
      rw [List.takeWhile_append_of_pos (by simpa using hspec)]
      simp
    have hdw : (k.str.dropWhile (· ≠ ':')).drop 1 = k.hash.str := by
      unfold PublicKey.str
      rw [List.dropWhile_append_of_pos (by simpa using hspec)]
      simp
    have hsp : KeySpec.fromStr k.spec.str = .ok k.spec := by cases k.spec <;> decide
    have hh : Hash.fromJson k.hash.str = .ok k.hash := by
      have hne' : k.hash.str ≠ [] := by
        intro h; have := congrArg List.length h; rw [hash_str_length (.inr hk)] at this; simp at this
      unfold Hash.fromJson
      rw [if_neg hne', hash_str_full hk, hash_new_hex hk]
    have main : PublicKey.fromStr k.str = .ok k := by
      unfold PublicKey.fromStr
      rw [if_neg hne, if_neg (by simp [hcnt]), htw, hdw, hsp, hh]; rfl
    refine ⟨main, ?_⟩
    unfold PublicKey.fromJson
    have : (Json.str k.str).truthy = true := by
      unfold Json.truthy
      cases h : k.str with
      | nil => exact absurd h hne
      | cons => rfl
    rw [this]; simpa using main
  · intro s k hs h
    unfold PublicKey.fromStr at h
    rw [if_neg hs] at h
    split at h
    · cases h
    · rename_i hc
      have hc : s.count ':' = 1 := by omega
      cases h1 : KeySpec.fromStr (s.takeWhile (· ≠ ':')) with
      | error e => simp only [h1, bind, Except.bind] at h; cases h
      | ok sp =>
        cases h2 : Hash.fromJson ((s.dropWhile (· ≠ ':')).drop 1) with
        | error e => simp only [h1, h2, bind, Except.bind] at h; cases h
        | ok hh =>
          simp only [h1, h2, bind, Except.bind, pure, Except.pure, Except.ok.injEq] at h
          subst h
          have hspec : s.takeWhile (· ≠ ':') = sp.str := by
            revert h1
            unfold KeySpec.fromStr
            split
            · rename_i h0; intro h1; cases h1; exact h0
            · split
              · rename_i h0; intro h1; cases h1; exact h0
              · intro h1; cases h1
          have hmem : ':' ∈ s := by
            rw [← List.count_pos_iff]; omega
          have hdw : ∃ p, s.dropWhile (· ≠ ':') = ':' :: p := by
            cases hd : s.dropWhile (· ≠ ':') with
            | nil =>
              have e := List.takeWhile_append_dropWhile (p := fun c => decide (c ≠ ':')) (l := s)
              rw [hd, List.append_nil] at e
              rw [← e] at hmem
              have := List.all_takeWhile (p := fun c => decide (c ≠ ':')) (l := s)
              rw [List.all_eq_true] at this
              have := this _ hmem
              simp at this
            | cons x p =>
              have := List.head?_dropWhile_not (p := (fun c => decide (c ≠ ':'))) (l := s)
              rw [hd] at this
              simp at this
              exact ⟨p, by rw [this]⟩
          obtain ⟨p, hp⟩ := hdw
          have hsplit : s = sp.str ++ ':' :: p := by
            rw [← hspec, ← hp, List.takeWhile_append_dropWhile]
          refine ⟨p, hsplit, ?_, ?_⟩
          · intro hm
            have : 2 ≤ s.count ':' := by
              rw [hsplit, List.count_append, List.count_cons]
              have := List.count_pos_iff.2 hm
              simp; omega
            omega
          · rw [hp] at h2; exact h2

/-- **C21** (finding). A key without payload is accepted and has an empty, not a 32-byte, hash; and the default key prints as text
that parses to a different key. -/
theorem C21_public_key_text_false :
    ¬ (∀ (s : Str) (k : PublicKey), s ≠ [] → PublicKey.fromStr s = .ok k → k.hash.value.length = 32) ∧
    ¬ (∀ k : PublicKey, (k.hash.value.length = 0 ∨ k.hash.value.length = 32) → PublicKey.fromStr k.str = .ok k) := by
  constructor
  · intro h
    exact absurd (h "ed25519:".toList ⟨.ed25519, ⟨[]⟩⟩ (by decide) (by decide)) (by decide)
  · intro h
    exact absurd (h ⟨.nil, ⟨[]⟩⟩ (by decide)) (by decide +kernel)

example : PublicKey.fromStr (PublicKey.str ⟨.ed25519, ⟨List.replicate 32 7⟩⟩) = .ok ⟨.ed25519, ⟨List.replicate 32 7⟩⟩ := by decide +kernel
example : PublicKey.fromStr "rsa:00".toList = .error .invalidPublicKeySpecifier := by decide

/-! ## Addresses -/

/-- **C22**. Every canonical address (public key, atomic swap, multi-signature; nil with zero hash) survives printing and
parsing, and its text has 78 characters. -/
theorem C22_address_roundtrip (H : Bytes → Bytes) (hH : Digest32 H) (u : UnlockHash) (hu : CanonicalAddress u) :
    (u.str H).length = 78 ∧ UnlockHash.fromJson H (.str (u.str H)) = .ok u := by
  have hl : u.hash.value.length = 32 := by
    rcases hu with ⟨-, h1⟩ | ⟨-, h1⟩
    · exact h1
    · rw [h1]; simp
  have hc : ((u.checksum H).take 6).length = 6 := by
    unfold UnlockHash.checksum; split
    · simp
    · rw [List.length_take, hH]; rfl
  refine ⟨?_, fromStr_str hH hu⟩
  simp [UnlockHash.str, toHex_length, hash_str_length (.inr hl), hc]

example : CanonicalAddress ⟨1, ⟨List.replicate 32 9⟩⟩ ∧ CanonicalAddress ⟨0, ⟨List.replicate 32 0⟩⟩ := by
  constructor
  · left; decide
  · right; decide

/-- **C23** (what holds). An accepted text has 78 characters, its first two characters denote the type as a decimal number, for a
non-nil type its last twelve characters are exactly the lower-case hex of the six checksum bytes of `type ‖ hash`, and the
hash, unless empty, prints as the lower-cased middle part. -/
theorem C23_accepted_address_partial (H : Bytes → Bytes) (s : Str) (u : UnlockHash) (h : UnlockHash.fromStr H s = .ok u) :
    s.length = 78 ∧ pyInt (s.take 2) = some (u.type.toNat : Int) ∧
    (u.type ≠ 0 → s.drop 66 = toHex ((H (u.type :: u.hash.value)).take 6)) ∧
    (u.type = 0 → u.hash.value = List.replicate 32 0) ∧
    (u.hash.value.length = 0 ∨ u.hash.value.length = 32) ∧
    (u.hash.value ≠ [] → toHex u.hash.value = lower ((s.drop 2).take 64)) := by
  unfold UnlockHash.fromStr at h
  split at h
  · cases h
  rename_i hlen
  have hlen : s.length = 78 := by omega
  split at h
  · cases h
  rename_i t ht
  split at h
  · cases h
  rename_i hh hhash
  obtain ⟨hx, hl⟩ := hash_new_str hhash
  have hmid : hh.value ≠ [] → toHex hh.value = lower ((s.drop 2).take 64) := by
    intro hne
    have : hh.value.length = 32 := by
      rcases hl with hl | hl
      · exact absurd (List.length_eq_zero_iff.1 hl) hne
      · exact hl
    apply (fromHex_spec _ _ hx).2
    rw [List.length_take, List.length_drop, hlen, this]; rfl
  split at h
  · cases h
  rename_i htn
  split at h
  · rename_i h0
    split at h
    · cases h
    rename_i hz
    cases h
    subst h0
    refine ⟨hlen, ht, fun h => absurd rfl h, fun _ => by simpa using hz, hl, hmid⟩
  · rename_i h0
    split at h
    · cases h
    rename_i hck
    cases h
    have htlt : t < 256 := pyInt_two_chars (by simp; omega) ht
    have htu : (UInt8.ofNat t.toNat).toNat = t.toNat := by simp; omega
    have hne : UInt8.ofNat t.toNat ≠ 0 := by
      intro h
      have := congrArg UInt8.toNat h
      rw [htu] at this
      simp at this
      omega
    refine ⟨hlen, ?_, fun _ => ?_, fun h => absurd h hne, hl, hmid⟩
    · rw [ht]; simp only [htu]; congr 1; omega
    · simp only [Decidable.not_not] at hck
      rw [hlen] at hck
      rw [← hck, UnlockHash.checksum, if_neg hne]

/-- **C23** (finding). For every hash function: (1) a nil address is accepted whatever its twelve checksum characters are; (2) the
type is read in decimal but printed in hex, so `"10…"` is accepted and printed as `"0a…"`; (3) a hash part of 64 blanks is
accepted as an empty hash. Hence re-printing an accepted text need not give it back. -/
theorem C23_only_checksummed_false (H : Bytes → Bytes) (hH : Digest32 H) :
    (∀ junk : Str, junk.length = 12 →
      UnlockHash.fromStr H ("00".toList ++ List.replicate 64 '0' ++ junk) = .ok ⟨0, ⟨List.replicate 32 0⟩⟩) ∧
    (∃ s u, UnlockHash.fromStr H s = .ok u ∧ s.take 2 = "10".toList ∧ (u.str H).take 2 = "0a".toList) ∧
    (∃ s u, UnlockHash.fromStr H s = .ok u ∧ u.type = 1 ∧ u.hash.value = []) ∧
    ¬ (∀ s u, UnlockHash.fromStr H s = .ok u → u.str H = lower s) := by
  have hz : Hash.new (.str (List.replicate 64 '0')) = .ok ⟨List.replicate 32 0⟩ := by decide +kernel
  have hb : Hash.new (.str (List.replicate 64 ' ')) = .ok ⟨[]⟩ := by decide +kernel
  have build : ∀ (p : Str) (t : Nat) (mid : Str) (h : Hash) (tail : Str), p.length = 2 → mid.length = 64 → tail.length = 12 →
      pyInt p = some (t : Int) → Hash.new (.str mid) = .ok h →
      UnlockHash.fromStr H (p ++ mid ++ tail) =
        if t = 0 then (if h.value ≠ List.replicate 32 0 then .error .valueError else .ok ⟨0, h⟩)
        else if toHex (((⟨UInt8.ofNat t, h⟩ : UnlockHash).checksum H).take 6) ≠ tail then .error .valueError else .ok ⟨UInt8.ofNat t, h⟩ := by
    intro p t mid h tail lp lm lt hp hm
    have hl : (p ++ mid ++ tail).length = 78 := by simp [lp, lm, lt]
    have h1 : (p ++ mid ++ tail).take 2 = p := by rw [List.append_assoc, List.take_left' lp]
    have h2 : ((p ++ mid ++ tail).drop 2).take 64 = mid := by rw [List.append_assoc, List.drop_left' lp, List.take_left' lm]
    have h3 : (p ++ mid ++ tail).drop 66 = tail := by rw [List.drop_left' (by simp [lp, lm])]
    unfold UnlockHash.fromStr
    rw [if_neg (by omega), h1, hp, h2]
    simp only [hm, hl, Int.toNat_natCast]
    rw [if_neg (by omega), h3]
    by_cases h0 : t = 0
    · subst h0; simp
    · rw [if_neg (by omega), if_neg h0]
  have ck : ∀ u : UnlockHash, u.type ≠ 0 → (toHex ((u.checksum H).take 6)).length = 12 := by
    intro u hu
    rw [toHex_length, UnlockHash.checksum, if_neg hu, List.length_take, hH]; rfl
  have p1 : ∀ junk : Str, junk.length = 12 →
      UnlockHash.fromStr H ("00".toList ++ List.replicate 64 '0' ++ junk) = .ok ⟨0, ⟨List.replicate 32 0⟩⟩ := by
    intro junk hj
    rw [build "00".toList 0 _ _ junk (by decide) (by simp) hj (by decide) hz]; simp
  refine ⟨p1, ?_, ?_, ?_⟩
  · refine ⟨"10".toList ++ List.replicate 64 '0' ++ toHex (((⟨10, ⟨List.replicate 32 0⟩⟩ : UnlockHash).checksum H).take 6),
      ⟨10, ⟨List.replicate 32 0⟩⟩, ?_, ?_, ?_⟩
    · rw [build "10".toList 10 _ _ _ (by decide) (by simp) (ck _ (by decide)) (by decide) hz]
      simp
    · rw [List.append_assoc, List.take_left' (by decide)]
    · unfold UnlockHash.str
      rw [List.append_assoc, List.take_left' (by decide)]; decide
  · refine ⟨"01".toList ++ List.replicate 64 ' ' ++ toHex (((⟨1, ⟨[]⟩⟩ : UnlockHash).checksum H).take 6), ⟨1, ⟨[]⟩⟩, ?_, rfl, rfl⟩
    rw [build "01".toList 1 _ _ _ (by decide) (by simp) (ck _ (by decide)) (by decide) hb]
    simp
  · intro h
    have h1 := h _ _ (p1 (List.replicate 12 'f') (by simp))
    have e : UnlockHash.str H ⟨0, ⟨List.replicate 32 0⟩⟩ = "00".toList ++ List.replicate 64 '0' ++ List.replicate 12 '0' := by
      simp only [UnlockHash.str, UnlockHash.checksum, if_true]
      decide +kernel
    rw [e] at h1
    exact absurd h1 (by decide +kernel)

example : ∃ u, UnlockHash.fromStr toyHash (UnlockHash.str toyHash ⟨3, ⟨List.replicate 32 200⟩⟩) = .ok u ∧ u.type ≠ 0 :=
  ⟨⟨3, ⟨List.replicate 32 200⟩⟩, by decide +kernel, by decide⟩

/-- **C24** (finding). For every hash function, the default address is *not* the address its own text denotes, and the two have
different binary encodings (1 and 33 bytes). -/
theorem C24_default_address_false (H : Bytes → Bytes) :
    ∃ u, UnlockHash.fromStr H (UnlockHash.default.str H) = .ok u ∧ u ≠ UnlockHash.default ∧
      u.str H = UnlockHash.default.str H ∧
      UnlockHash.default.sia.bytes.length = 1 ∧ u.sia.bytes.length = 33 ∧
      UnlockHash.default.riv.bytes.length = 1 ∧ u.riv.bytes.length = 33 := by
  have e : ∀ h : Bytes, (h = [] ∨ h = List.replicate 32 0) → UnlockHash.str H ⟨0, ⟨h⟩⟩ = List.replicate 78 '0' := by
    intro h hh
    simp only [UnlockHash.str, UnlockHash.checksum, if_true]
    rcases hh with rfl | rfl <;> decide +kernel
  refine ⟨⟨0, ⟨List.replicate 32 0⟩⟩, ?_, by decide, ?_, by decide, by decide, by decide, by decide⟩
  · rw [UnlockHash.default, e [] (.inl rfl)]
    unfold UnlockHash.fromStr
    have hz : Hash.new (.str (((List.replicate 78 '0').drop 2).take 64)) = .ok ⟨List.replicate 32 0⟩ := by decide +kernel
    have hp : pyInt ((List.replicate 78 '0').take 2) = some 0 := by decide
    rw [if_neg (by simp), hp, hz]
    simp
  · rw [e _ (.inr rfl), UnlockHash.default, e _ (.inl rfl)]

/-! ## Multi-signature addresses -/

theorem multiSigLeaves_eq (H : Bytes → Bytes) (owners : List UnlockHash) (n : Int) (h0 : 0 ≤ n) (h1 : n < 2^64)
    (hl : owners.length < 2^64) :
    multiSigLeaves H owners n = .ok (toBytesLE 8 owners.length ::
      (sortOwners H owners).map (fun u => u.type :: u.hash.value) ++ [toBytesLE 8 n.toNat]) := by
  have e : ∀ i : Int, 0 ≤ i → i < 2^64 → siaEncode [.int i] = .ok (toBytesLE 8 i.toNat) := by
    intro i a b
    simp only [siaEncode, siaAddSeq, siaAdd, siaInt_ok a b]
    simp [Out.andThen, Out.ok, Out.toRes]
  have eu : ∀ u : UnlockHash, siaEncode [u.val] = .ok (u.type :: u.hash.value) := by
    intro u
    simp only [siaEncode, siaAddSeq, siaAdd, UnlockHash.val, uh_sia]
    simp [Out.andThen, Out.ok, Out.toRes]
  have em : ∀ l : List UnlockHash, (l.mapM fun u => siaEncode [u.val]) = .ok (l.map fun u => u.type :: u.hash.value) := by
    intro l
    induction l with
    | nil => rfl
    | cons u l ih => rw [List.mapM_cons, eu, ih]; rfl
  have hlen : (sortOwners H owners).length = owners.length := (sortOwners_perm H owners).length_eq
  unfold multiSigLeaves
  simp only [hlen, e _ (Int.natCast_nonneg _) (by omega : (owners.length : Int) < 2^64), em, e n h0 h1, bind, Except.bind]
  rfl

/-- **C25** (what holds). For owners with 32-byte hashes the multi-signature address does not depend on their order; it is the
RFC-6962 style Merkle root over the owner count, the owners in the order of their text form, and the required count. -/
theorem C25_multisig_order_partial (H : Bytes → Bytes) (owners owners' : List UnlockHash) (n : Int)
    (hf : ∀ u ∈ owners, FullAddress u) (hp : owners'.Perm owners) :
    Condition.unlockhash H (.multiSig owners' n) = Condition.unlockhash H (.multiSig owners n) ∧
    (0 ≤ n → n < 2^64 → owners.length < 2^64 →
      ∀ sorted : List UnlockHash, sorted.Perm owners → sorted.Pairwise (fun a b => strLe (a.str H) (b.str H) = true) →
        Condition.unlockhash H (.multiSig owners n) = .ok ⟨3, ⟨merkle H (toBytesLE 8 owners.length ::
          sorted.map (fun u => u.type :: u.hash.value) ++ [toBytesLE 8 n.toNat])⟩⟩) := by
  have hs : sortOwners H owners' = sortOwners H owners :=
    sortOwners_unique (fun u hu => hf u (hp.subset hu)) ((sortOwners_perm H owners).trans hp.symm) (sortOwners_sorted H owners)
  refine ⟨?_, ?_⟩
  · simp only [Condition.unlockhash, multiSigLeaves, hs]
  · intro h0 h1 hl sorted hps hsorted
    have : sortOwners H owners = sorted := sortOwners_unique hf hps hsorted
    simp only [Condition.unlockhash, multiSigLeaves_eq H owners n h0 h1 hl, this, bind, Except.bind]
    rw [C07_merkle_root H _ (by simp)]
    rfl

/-- **C25** (finding). With the default (empty) nil address among the owners the address does depend on the order: the empty and
the zero-filled nil address have the same text, hence keep their relative order, but different encodings. -/
theorem C25_multisig_order_false :
    ¬ (∀ (H : Bytes → Bytes) (owners owners' : List UnlockHash) (n : Int), Digest32 H →
        (∀ u ∈ owners, u.hash.value.length = 0 ∨ u.hash.value.length = 32) → owners'.Perm owners →
        Condition.unlockhash H (.multiSig owners' n) = Condition.unlockhash H (.multiSig owners n)) := by
  intro h
  have h1 := h toyHash [⟨0, ⟨[]⟩⟩, ⟨0, ⟨List.replicate 32 0⟩⟩] [⟨0, ⟨List.replicate 32 0⟩⟩, ⟨0, ⟨[]⟩⟩] 1 toyHash_digest
    (by decide +kernel) (List.Perm.swap _ _ _)
  have s1 : sortOwners toyHash [⟨0, ⟨[]⟩⟩, ⟨0, ⟨List.replicate 32 0⟩⟩] = [⟨0, ⟨[]⟩⟩, ⟨0, ⟨List.replicate 32 0⟩⟩] :=
    by decide +kernel
  have s2 : sortOwners toyHash [⟨0, ⟨List.replicate 32 0⟩⟩, ⟨0, ⟨[]⟩⟩] = [⟨0, ⟨List.replicate 32 0⟩⟩, ⟨0, ⟨[]⟩⟩] :=
    by decide +kernel
  simp only [Condition.unlockhash, multiSigLeaves, s1, s2] at h1
  revert h1
  decide +kernel

/-- Owners in a non-sorted order. -/
example : ∀ u ∈ ([⟨1, ⟨List.replicate 32 9⟩⟩, ⟨1, ⟨List.replicate 32 2⟩⟩] : List UnlockHash), FullAddress u := by
  simp [FullAddress]

/-! ## Time locks -/

/-- **C26**. Adding a lock to a recipient changes neither the address nor what is obtained by unwrapping, and the lock is stored as
given. -/
theorem C26_lock_keeps_address (H : Bytes → Bytes) (r : Recipient) (v : Int) (c : Condition)
    (h : fromRecipient H r (.int v) = .ok c) :
    0 ≤ v ∧ c.lock = v ∧ fromRecipient H r .none = .ok c.unwrap ∧ c.unlockhash H = c.unwrap.unlockhash H := by
  unfold fromRecipient at h ⊢
  cases hb : r.base H with
  | error e => simp [hb, bind, Except.bind] at h
  | ok b =>
    simp only [hb, bind, Except.bind, outputLock] at h ⊢
    split at h
    · cases h
    · rename_i hv
      split at hv
      · cases hv
      · cases hv
        cases h
        exact ⟨by omega, rfl, rfl, rfl⟩

example : ∃ c, fromRecipient toyHash .none (.int 42) = .ok c := ⟨.lockTime 42 .nil, by decide⟩

/-- **C27** (boundary). An output locked until `v` is locked exactly while the height (for `v` below 500 million) or the time
(otherwise) is below `v`. -/
theorem C27_lock_boundary (v height time : Int) :
    lockedCheck v height time = true ↔ (if v < 500000000 then height < v else time < v) := by
  unfold lockedCheck lockIsTimestamp
  by_cases h : v < 500000000
  · rw [if_pos h, if_neg (by simpa using h)]; simp
  · rw [if_neg h, if_pos (by simp only [decide_eq_true_eq]; omega)]; simp

/-- **C27** (monotonicity). Along any sequence of chain states with non-decreasing height and time, once unlocked an output stays
unlocked. -/
theorem C27_unlocked_stays_unlocked (v : Int) (height time : Nat → Int)
    (hh : ∀ i, height i ≤ height (i+1)) (ht : ∀ i, time i ≤ time (i+1)) (i j : Nat) (hij : i ≤ j)
    (h : lockedCheck v (height i) (time i) = false) : lockedCheck v (height j) (time j) = false := by
  have mono : ∀ f : Nat → Int, (∀ i, f i ≤ f (i+1)) → ∀ i j, i ≤ j → f i ≤ f j := by
    intro f hf i j hij
    induction hij with
    | refl => exact Int.le_refl _
    | step _ ih => exact Int.le_trans ih (hf _)
  have a := mono height hh i j hij
  have b := mono time ht i j hij
  rw [Bool.eq_false_iff, Ne, C27_lock_boundary] at h ⊢
  split at h <;> rename_i hv
  · rw [if_pos hv]; omega
  · rw [if_neg hv]; omega

example : lockedCheck 500000000 600000000 499999999 = true ∧ lockedCheck 499999999 499999998 1600000000 = true ∧
    lockedCheck 499999999 499999999 0 = false := by decide

/-! ## Conditions: JSON and binary -/

theorem lockInner_roundtrip (H : Bytes → Bytes) (hH : Digest32 H) (c : Condition) (hc : CanonicalCondition c)
    (ht : c.type ∈ [0, 1, 4]) : lockInnerOfJson H (c.json H) = .ok c := by
  cases c with
  | nil => rfl
  | unlockHash u =>
    have := (C22_address_roundtrip H hH u hc).2
    simp [lockInnerOfJson, Condition.json, condJson, Condition.jsonData, Condition.type, condTypeOf, condDataOf, Json.get?, jget,
      Json.asInt?, Json.idx, bind, Except.bind, pure, Except.pure, this]
  | multiSig owners n =>
    have h1 : (owners.map fun u => Json.str (u.str H)).mapM (UnlockHash.fromJson H) = .ok owners :=
      mapM_ok _ _ _ (fun u hu => (C22_address_roundtrip H hH u (hc u hu)).2)
    simp [lockInnerOfJson, Condition.json, condJson, Condition.jsonData, Condition.type, condTypeOf, condDataOf, Json.get?, jget,
      Json.asInt?, Json.idx, Json.toInt, Json.iter, multiSigOfJson, bind, Except.bind, pure, Except.pure, h1]
  | atomicSwap => simp [Condition.type] at ht
  | lockTime => simp [Condition.type] at ht

/-- **C28** (what holds). Every condition the chain accepts survives JSON unchanged (hence with the same encodings). -/
theorem C28_condition_json_partial (H : Bytes → Bytes) (hH : Digest32 H) (c : Condition) (hc : CanonicalCondition c) :
    Condition.fromJson H (c.json H) = .ok c := by
  by_cases ht : c.type ∈ [0, 1, 4]
  · have := lockInner_roundtrip H hH c hc ht
    cases c with
    | atomicSwap => simp [Condition.type] at ht
    | lockTime => simp [Condition.type] at ht
    | nil => exact this
    | unlockHash u =>
      unfold Condition.fromJson
      have e : condTypeOf ((Condition.unlockHash u).json H) = .ok (some 1) := rfl
      rw [e]; exact this
    | multiSig o n =>
      unfold Condition.fromJson
      have e : condTypeOf ((Condition.multiSig o n).json H) = .ok (some 4) := rfl
      rw [e]; exact this
  · cases c with
    | nil => simp [Condition.type] at ht
    | unlockHash => simp [Condition.type] at ht
    | multiSig => simp [Condition.type] at ht
    | lockTime l c =>
      obtain ⟨hl, hct, hcc⟩ := hc
      have hi := lockInner_roundtrip H hH c hcc hct
      have hi' : lockInnerOfJson H (condJson c.type (c.jsonData H)) = .ok c := hi
      have hlo : outputLock (.int l) = .ok l := by simp only [outputLock]; rw [if_neg (by omega)]
      have e1 : condTypeOf ((Condition.lockTime l c).json H) = .ok (some 3) := rfl
      have e2 : condDataOf ((Condition.lockTime l c).json H) =
        .ok (.obj [("locktime", .int l), ("condition", condJson c.type (c.jsonData H))]) := rfl
      have e3 : ∀ j, Json.idx (.obj [("locktime", .int l), ("condition", j)]) "locktime" = .ok (.int l) := fun _ => rfl
      have e4 : ∀ j, Json.idx (.obj [("locktime", .int l), ("condition", j)]) "condition" = .ok j := fun _ => rfl
      simp [Condition.fromJson, lockTimeOfJson, e1, e2, e3, e4, Json.toInt, bind, Except.bind, pure, Except.pure, hlo, hi']
    | atomicSwap s r hs t =>
      obtain ⟨⟨hs1, hs2⟩, ⟨hr1, hr2⟩, ⟨b, rfl, hb⟩, htm⟩ := hc
      have e1 := (C22_address_roundtrip H hH s hs1).2
      have e2 := (C22_address_roundtrip H hH r hr1).2
      have p1 : swapParty s = .ok s := by
        unfold swapParty; rw [if_pos]; simp only [List.mem_cons, List.not_mem_nil, or_false] at hs2; exact hs2.symm
      have p2 : swapParty r = .ok r := by
        unfold swapParty; rw [if_pos]; simp only [List.mem_cons, List.not_mem_nil, or_false] at hr2; exact hr2.symm
      have e3 : secretHashOfJson (.str (hashedSecretData (some b)).str) = .ok b := by
        simp [secretHashOfJson, hashedSecretData, BinData.str, StrEnc.toStr, BinData.new, BinData.set, BVal.norm, StrEnc.fromStr,
          fromHex_toHex, bind, Except.bind, hb, pure, Except.pure]
      have e4 : swapLockTime t = .ok t := by
        have h0 : ¬ t < 0 := by omega
        have h1 : lockIsTimestamp t = true := by simp only [lockIsTimestamp, decide_eq_true_eq]; omega
        simp [swapLockTime, outputLock, h0, h1, bind, Except.bind, pure, Except.pure]
      simp [Condition.fromJson, atomicSwapOfJson, Condition.json, condJson, Condition.jsonData, Condition.type, condTypeOf, condDataOf,
        Json.get?, jget, Json.asInt?, Json.idx, Json.toInt, bind, Except.bind, pure, Except.pure, e1, e2, p1, p2, e3, e4]

/-- **C28** (finding). Conditions that the constructors allow but that do not survive: the default unlock-hash condition changes its
encoding; an atomic swap condition without time lock and a lock around an atomic swap condition are refused. -/
theorem C28_condition_json_false (H : Bytes → Bytes) :
    (∃ c, Condition.fromJson H ((Condition.unlockHash .default).json H) = .ok c ∧ c ≠ .unlockHash .default ∧
      c.siaData.bytes ≠ (Condition.unlockHash .default).siaData.bytes) ∧
    Condition.fromJson H ((Condition.lockTime 1 (.atomicSwap .default .default none 0)).json H) = .error .valueError ∧
    Condition.fromJson H ((Condition.atomicSwap .default .default none 0).json H) = .error .typeError := by
  obtain ⟨u, h1, h2, -, h3, h4, -, -⟩ := C24_default_address_false H
  have hu : UnlockHash.fromStr H (UnlockHash.default.str H) = .ok ⟨0, ⟨List.replicate 32 0⟩⟩ := by
    have e : UnlockHash.default.str H = "00".toList ++ List.replicate 64 '0' ++ List.replicate 12 '0' := by
      simp only [UnlockHash.str, UnlockHash.checksum, UnlockHash.default, if_true]; decide +kernel
    rw [e]
    unfold UnlockHash.fromStr
    have hz : Hash.new (.str ((("00".toList ++ List.replicate 64 '0' ++ List.replicate 12 '0').drop 2).take 64)) =
        .ok ⟨List.replicate 32 0⟩ := by decide +kernel
    have hp : pyInt (("00".toList ++ List.replicate 64 '0' ++ List.replicate 12 '0').take 2) = some 0 := by decide +kernel
    rw [if_neg (by simp), hp, hz]
    simp
  refine ⟨⟨.unlockHash u, ?_, by simpa using h2, ?_⟩, ?_, ?_⟩
  · simp [Condition.fromJson, lockInnerOfJson, Condition.json, condJson, Condition.jsonData, Condition.type, condTypeOf, condDataOf,
      Json.get?, jget, Json.asInt?, Json.idx, UnlockHash.fromJson, bind, Except.bind, pure, Except.pure, h1]
  · intro h
    have := congrArg List.length h
    simp only [Condition.siaData] at this
    omega
  · simp [Condition.fromJson, lockTimeOfJson, lockInnerOfJson, Condition.json, condJson, Condition.jsonData, Condition.type, condTypeOf,
      condDataOf, Json.get?, jget, Json.asInt?, Json.idx, Json.toInt, outputLock, bind, Except.bind, pure, Except.pure,
      throw, throwThe, MonadExceptOf.throw]
  · have hsec : secretHashOfJson (.str (hashedSecretData none).str) = .ok [] := by decide
    have hlk : swapLockTime 0 = .error .typeError := by decide
    simp [Condition.fromJson, atomicSwapOfJson, Condition.json, condJson, Condition.jsonData, Condition.type, condTypeOf,
      condDataOf, Json.get?, jget, Json.asInt?, Json.idx, Json.toInt, UnlockHash.fromJson, bind, Except.bind, pure, Except.pure,
      hu, hsec, hlk]
    rfl

example : CanonicalCondition (.lockTime 7 (.multiSig [⟨1, ⟨List.replicate 32 9⟩⟩, ⟨0, ⟨List.replicate 32 0⟩⟩] 1)) := by
  refine ⟨by decide, by decide, ?_⟩
  intro u hu
  simp only [List.mem_cons, List.not_mem_nil, or_false] at hu
  rcases hu with rfl | rfl
  · left; decide
  · right; decide

/-- **C29** (what holds). Among conditions whose hashes have their 32 bytes, both encodings are self-delimiting: the bytes determine
the condition (including nested locks) and where the next field starts. -/
theorem C29_condition_encoding_partial :
    SelfDelimiting FullCondition (fun c => c.sia.toRes) ∧ SelfDelimiting FullCondition (fun c => c.riv.toRes) := sd_condition

/-- **C29** (finding). With default (empty) owner hashes two different conditions have the same encodings. -/
theorem C29_condition_encoding_false :
    ¬ (∀ c c' : Condition, c.sia = c'.sia → c = c') ∧ ¬ (∀ c c' : Condition, c.riv = c'.riv → c = c') := by
  constructor
  · intro h
    have := h (.multiSig [⟨0, ⟨[]⟩⟩, ⟨1, ⟨List.replicate 32 1⟩⟩] 1) (.multiSig [⟨0, ⟨List.replicate 32 1⟩⟩, ⟨1, ⟨[]⟩⟩] 1) (by decide +kernel)
    exact absurd this (by decide)
  · intro h
    have := h (.multiSig [⟨0, ⟨[]⟩⟩, ⟨1, ⟨List.replicate 32 1⟩⟩] 1) (.multiSig [⟨0, ⟨List.replicate 32 1⟩⟩, ⟨1, ⟨[]⟩⟩] 1) (by decide +kernel)
    exact absurd this (by decide)

example : FullCondition (.atomicSwap ⟨1, ⟨List.replicate 32 1⟩⟩ ⟨1, ⟨List.replicate 32 2⟩⟩ (some (List.replicate 32 3)) 1600000000) ∧
    ∃ x, (Condition.sia (.atomicSwap ⟨1, ⟨List.replicate 32 1⟩⟩ ⟨1, ⟨List.replicate 32 2⟩⟩ (some (List.replicate 32 3)) 1600000000)).toRes = .ok x := by
  refine ⟨⟨rfl, rfl, _, rfl, by decide⟩, ?_⟩
  exact ⟨_, rfl⟩

/-! ## Recipients -/

/-- **C30**. What each recipient notation stands for, and that everything else is refused. -/
theorem C30_recipient (H : Bytes → Bytes) :
    fromRecipient H .none .none = .ok .nil ∧
    (∀ c, fromRecipient H (.cond c) .none = .ok c) ∧
    (∀ u, fromRecipient H (.uh u) .none = .ok (.unlockHash u)) ∧
    (∀ s u, UnlockHash.fromStr H s = .ok u → fromRecipient H (.str s) .none = .ok (.unlockHash u)) ∧
    (∀ s e, UnlockHash.fromStr H s = .error e → fromRecipient H (.str s) .none = .error e) ∧
    (∀ us : List UnlockHash, fromRecipient H (.list (us.map .uh)) .none = .ok (.multiSig us us.length)) ∧
    (∀ (us : List UnlockHash) (n : Int),
      fromRecipient H (.pair (.int n) (.list (us.map .uh))) .none = .ok (.multiSig us n) ∧
      fromRecipient H (.pair (.list (us.map .uh)) (.int n)) .none = .ok (.multiSig us n)) ∧
    (∀ n, fromRecipient H (.tuple n) .none = .error .valueError) ∧
    fromRecipient H .other .none = .error .typeError ∧
    (∀ r v, 0 ≤ v → fromRecipient H r (.int v) = (fromRecipient H r .none).map (.lockTime v)) ∧
    (∀ r v c, v < 0 → fromRecipient H r (.int v) ≠ .ok c) := by
  have hm : ∀ us : List UnlockHash, (us.map OwnerArg.uh).mapM (OwnerArg.resolve H) = .ok us := fun us =>
    mapM_ok _ _ _ (fun _ _ => rfl)
  refine ⟨rfl, fun _ => rfl, fun _ => rfl, ?_, ?_, ?_, ?_, fun _ => rfl, rfl, ?_, ?_⟩
  · intro s u h; simp [fromRecipient, Recipient.base, h, bind, Except.bind, pure, Except.pure]
  · intro s u h; simp [fromRecipient, Recipient.base, h, bind, Except.bind]
  · intro us; simp [fromRecipient, Recipient.base, multiSigNew, hm, CountArg.resolve, bind, Except.bind, pure, Except.pure]
  · intro us n
    simp [fromRecipient, Recipient.base, pairCondition, multiSigNew, hm, CountArg.resolve, bind, Except.bind, pure, Except.pure]
  · intro r v hv
    unfold fromRecipient
    cases hb : r.base H with
    | error e => rfl
    | ok c =>
      have : ¬ v < 0 := by omega
      simp [bind, Except.bind, pure, Except.pure, outputLock, this, Except.map]
  · intro r v c hv
    unfold fromRecipient
    cases hb : r.base H with
    | error e => simp [bind, Except.bind]
    | ok c => simp [bind, Except.bind, outputLock, hv]

example : fromRecipient toyHash (.pair (.int 2) (.list [.uh ⟨1, ⟨List.replicate 32 1⟩⟩, .none, .str (UnlockHash.str toyHash ⟨1, ⟨List.replicate 32 9⟩⟩)])) (.int 10) =
    .ok (.lockTime 10 (.multiSig [⟨1, ⟨List.replicate 32 1⟩⟩, .default, ⟨1, ⟨List.replicate 32 9⟩⟩] 2)) := by decide +kernel

end TF.Props
