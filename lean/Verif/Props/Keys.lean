import Verif.Spec.Keys
import Verif.Lemmas.Bytes
import Verif.Lemmas.WalletSign
import Verif.Props.Fulfillments
/-! # The keys of a wallet (C58, C59, C92) -/
namespace TF.Props
open TF Spec

/-! ## Key numbers -/

theorem keyInput_eq (seed : Bytes) (i : Nat) : keyInput seed i = if i < 2^64 then .ok (seed ++ toBytesLE 8 i) else .error .integerOutOfRange := by
  unfold keyInput siaInt
  split
  · omega
  · split
    · rw [if_neg (by omega)]; rfl
    · rw [if_pos (by omega)]; simp [Out.andThen, Out.ok, Out.toRes]

theorem keyAt_ok {H derive : Bytes → Bytes} (hd : Digest32 derive) {seed : Bytes} {i : Nat} {k : PublicKey} :
    keyAt H derive seed i = .ok k ↔ SeedKey H derive seed i k := by
  unfold keyAt
  rw [keyInput_eq]
  constructor
  · intro h
    by_cases hi : i < 2^64
    · simp only [hi, if_true, bind, Except.bind] at h
      split at h
      · cases h
      · rename_i x hx
        have := hashNew_bytes hx
        cases h
        refine ⟨toBytesLE 8 i, by simp, ?_, ?_⟩
        · rw [leValue_toBytesLE]; exact Nat.mod_eq_of_lt (by simpa using hi)
        · rw [← this]
    · simp [hi, bind, Except.bind] at h
  · rintro ⟨bs, hl, rfl, rfl⟩
    have hlt : leValue bs < 2^64 := by have := leValue_lt bs; rw [hl] at this; simpa using this
    have : toBytesLE 8 (leValue bs) = bs := by rw [← hl]; exact toBytesLE_leValue bs
    simp only [hlt, if_true, bind, Except.bind, this]
    have hn : Hash.new (.bytes (derive (H (seed ++ bs)))) = .ok ⟨derive (H (seed ++ bs))⟩ := by
      simp [Hash.new, BinData.new, BinData.set, BVal.norm, hd _, bind, Except.bind, pure, Except.pure]
    rw [hn]; rfl

theorem seedKey_lt {H derive : Bytes → Bytes} {seed : Bytes} {i : Nat} {k : PublicKey} (h : SeedKey H derive seed i k) : i < 2^64 := by
  obtain ⟨bs, hl, rfl, -⟩ := h
  have := leValue_lt bs; rw [hl] at this; simpa using this

theorem seedKey_unique {H derive : Bytes → Bytes} {seed : Bytes} {i : Nat} {k k' : PublicKey} (h : SeedKey H derive seed i k)
    (h' : SeedKey H derive seed i k') : k = k' := by
  obtain ⟨bs, hl, he, rfl⟩ := h
  obtain ⟨cs, hl', he', rfl⟩ := h'
  have : bs = cs := by rw [← toBytesLE_leValue bs, ← toBytesLE_leValue cs, hl, hl', he, he']
  rw [this]

theorem seedKey_exists (H derive : Bytes → Bytes) (seed : Bytes) {i : Nat} (h : i < 2^64) : ∃ k, SeedKey H derive seed i k :=
  ⟨_, toBytesLE 8 i, by simp, by rw [leValue_toBytesLE]; exact Nat.mod_eq_of_lt (by simpa using h), rfl⟩

theorem addressOf_ok {H : Bytes → Bytes} {k : PublicKey} {a : Str} : addressOf H k = .ok a ↔ HasAddress H k a := by
  unfold addressOf HasAddress
  cases h : k.unlockhash H with
  | error e => simp [bind, Except.bind]
  | ok u => simp [bind, Except.bind, pure, Except.pure]

theorem hasAddress_unique {H : Bytes → Bytes} {k : PublicKey} {a b : Str} (h : HasAddress H k a) (h' : HasAddress H k b) : a = b := by
  have := addressOf_ok.2 h; rw [addressOf_ok.2 h'] at this; cases this; rfl

theorem seedKey_address {H derive : Bytes → Bytes} (hd : Digest32 derive) {seed : Bytes} {i : Nat} {k : PublicKey} (h : SeedKey H derive seed i k) :
    ∃ a, HasAddress H k a := by
  obtain ⟨bs, -, -, rfl⟩ := h
  obtain ⟨e, he⟩ := key_unlockhash H (k := ⟨.ed25519, ⟨derive (H (seed ++ bs))⟩⟩) (by show (derive _).length ≤ 32; rw [hd]; decide)
  exact ⟨_, _, he, rfl⟩

/-- **C59.** Key number `i` is derived from the digest of the seed followed by `i` in eight bytes, for every `i` below 2^64. -/
theorem C59_key (H derive : Bytes → Bytes) (hd : Digest32 derive) (seed : Bytes) (i : Nat) (k : PublicKey) :
    keyAt H derive seed i = .ok k ↔ SeedKey H derive seed i k := keyAt_ok hd

/-- **C59.** The byte strings that are hashed differ for different seeds of the same length and for different key numbers. -/
theorem C59_preimage_injective (s s' : Bytes) (i j : Nat) (b : Bytes) (hl : s.length = s'.length) (h : keyInput s i = .ok b)
    (h' : keyInput s' j = .ok b) : s = s' ∧ i = j := by
  rw [keyInput_eq] at h h'
  split at h
  · rename_i hi
    split at h'
    · rename_i hj
      cases h
      simp only [Except.ok.injEq] at h'
      obtain ⟨h1, h2⟩ := List.append_inj h' hl.symm
      exact ⟨h1.symm, toBytesLE_inj (by simpa using hi) (by simpa using hj) h2.symm⟩
    · cases h'
  · cases h

/-! ## Handing out keys -/

theorem addPair_ok {H : Bytes → Bytes} {s s' : Keys} {k : PublicKey} (h : s.addPair H k = .ok s') :
    ∃ a, HasAddress H k a ∧ (∀ p ∈ s.pairs, p.1 ≠ a) ∧ s' = { s with pairs := s.pairs ++ [(a, k)] } := by
  simp only [Keys.addPair, bind, Except.bind] at h
  split at h
  · cases h
  · rename_i a ha
    split at h
    · cases h
    · rename_i hn
      cases h
      refine ⟨a, addressOf_ok.1 ha, ?_, rfl⟩
      intro p hp he
      exact hn (List.any_eq_true.2 ⟨p, hp, by simp [he]⟩)

/-- The wallet has exactly the keys 0 … n-1, in this order. -/
def FirstKeys (H derive : Bytes → Bytes) (s : Keys) (n : Nat) : Prop :=
  s.pairs.length = n ∧ ∀ i p, s.pairs[i]? = some p → SeedKey H derive s.seed i p.2 ∧ HasAddress H p.2 p.1

theorem new1_first {H derive : Bytes → Bytes} (hd : Digest32 derive) {s s' : Keys} {k : PublicKey} {n : Nat} (hs : FirstKeys H derive s n)
    (hc : s.count = n) (hu : s.unused = []) (h : s.new1 H derive = .ok (s', k)) :
    FirstKeys H derive s' (n + 1) ∧ s'.count = n + 1 ∧ s'.unused = [] ∧ s'.seed = s.seed ∧ s'.primary = s.primary ∧ s'.scanCount = s.scanCount ∧
      ∃ a, s'.pairs = s.pairs ++ [(a, k)] ∧ HasAddress H k a := by
  simp only [Keys.new1, hu, bind, Except.bind] at h
  split at h
  · cases h
  · rename_i k' hk
    split at h
    · cases h
    · rename_i s1 hs1
      simp only [pure, Except.pure, Except.ok.injEq, Prod.mk.injEq] at h
      obtain ⟨rfl, rfl⟩ := h
      obtain ⟨a, ha, -, rfl⟩ := addPair_ok hs1
      refine ⟨⟨by simp [hs.1], ?_⟩, by simp [hc], hu, rfl, rfl, rfl, a, rfl, ha⟩
      intro i p hp
      simp only [List.getElem?_append] at hp
      split at hp
      · exact hs.2 i p hp
      · rename_i hge
        have : i = n := by
          rw [List.getElem?_singleton] at hp
          split at hp
          · rename_i h0; have := hs.1; omega
          · cases hp
        subst this
        rw [hs.1, Nat.sub_self] at hp
        cases hp
        rw [hc] at hk
        exact ⟨(keyAt_ok hd).1 hk, ha⟩

theorem newMany_first {H derive : Bytes → Bytes} (hd : Digest32 derive) : ∀ {m : Nat} {s s' : Keys} {n : Nat}, FirstKeys H derive s n → s.count = n →
    s.unused = [] → s.newMany H derive m = .ok s' → FirstKeys H derive s' (n + m) ∧ s'.count = n + m ∧ s'.unused = [] ∧ s'.seed = s.seed ∧
      s'.primary = s.primary ∧ s'.scanCount = s.scanCount := by
  intro m
  induction m with
  | zero => intro s s' n h1 h2 h3 h; cases h; exact ⟨h1, h2, h3, rfl, rfl, rfl⟩
  | succ m ih =>
    intro s s' n h1 h2 h3 h
    simp only [Keys.newMany, bind, Except.bind] at h
    split at h
    · cases h
    · rename_i x hx
      obtain ⟨s1, k⟩ := x
      obtain ⟨g1, g2, g3, g4, g5, g6, -⟩ := new1_first hd h1 h2 h3 hx
      obtain ⟨f1, f2, f3, f4, f5, f6⟩ := ih g1 g2 g3 h
      exact ⟨by rw [show n + (m + 1) = n + 1 + m by omega]; exact f1, by omega, f3, f4.trans g4, f5.trans g5, f6.trans g6⟩

/-- **C59.** A new wallet with `n` keys asked for has exactly the keys number 0 … n-1 (at least one) of its seed, each under its address; its
primary address is that of key 0. -/
theorem C59_new_wallet (H derive : Bytes → Bytes) (hd : Digest32 derive) (seed : Bytes) (n sc : Int) (s : Keys) (h : Keys.init H derive seed n sc = .ok s) :
    FirstKeys H derive s (max 1 n).toNat ∧ s.seed = seed ∧ s.count = (max 1 n).toNat ∧ s.unused = [] ∧ SeedAddress H derive seed 0 s.primary := by
  simp only [Keys.init, bind, Except.bind] at h
  split at h
  · cases h
  · rename_i x hx
    obtain ⟨s0, k⟩ := x
    simp only at h
    split at h
    · cases h
    · rename_i a ha
      have f0 : FirstKeys H derive ({ seed := seed, scanCount := if max (-1) sc = -1 then 3 else (max (-1) sc).toNat } : Keys) 0 :=
        ⟨rfl, fun i p hp => by simp at hp⟩
      obtain ⟨g1, g2, g3, g4, -, -, b, g5, g6⟩ := new1_first hd f0 rfl rfl hx
      have g1' : FirstKeys H derive ({ s0 with primary := a } : Keys) 1 := g1
      obtain ⟨f1, f2, f3, f4, f5, -⟩ := newMany_first hd g1' g2 g3 h
      have e : 1 + ((max 1 n).toNat - 1) = (max 1 n).toNat := by omega
      rw [e] at f1 f2
      have hk : SeedKey H derive seed 0 k := by
        have := (g1.2 0 (b, k) (by rw [g5]; rfl)).1
        rw [g4] at this; exact this
      exact ⟨f1, f4.trans g4, f2, f3, k, hk, by rw [f5]; exact addressOf_ok.1 ha⟩

theorem newMany_add (H derive : Bytes → Bytes) : ∀ (m m' : Nat) (s : Keys), s.newMany H derive (m + m') = (s.newMany H derive m).bind (·.newMany H derive m') := by
  intro m
  induction m with
  | zero => intro m' s; simp [Keys.newMany, Except.bind]
  | succ m ih =>
    intro m' s
    rw [show m + 1 + m' = m + m' + 1 by omega]
    simp only [Keys.newMany, bind, Except.bind]
    cases s.new1 H derive with
    | error e => rfl
    | ok x => exact ih m' x.1

/-- **C59.** A wallet that was asked for `m` more keys (no scan found any) can be recreated from its seed and its number of keys. -/
theorem C59_recreate (H derive : Bytes → Bytes) (seed : Bytes) (n m : Nat) (sc : Int) (hn : 1 ≤ n) :
    Keys.init H derive seed (n + m : Nat) sc = (Keys.init H derive seed n sc).bind (·.newMany H derive m) := by
  simp only [Keys.init, bind, Except.bind]
  cases ({ seed := seed, scanCount := if max (-1) sc = -1 then 3 else (max (-1) sc).toNat } : Keys).new1 H derive with
  | error e => rfl
  | ok x =>
    simp only
    cases addressOf H x.2 with
    | error e => rfl
    | ok a =>
      simp only
      have : (max 1 ((n + m : Nat) : Int)).toNat - 1 = ((max 1 (n : Int)).toNat - 1) + m := by omega
      rw [this]
      exact newMany_add H derive _ _ _

/-! ## Scanning -/

/-- The last used key in a list. -/
def lastUsed : Nat → Nat → List (PublicKey × Bool) → Nat
  | _, last, [] => last
  | i, _, (_, true) :: rest => lastUsed (i + 1) i rest
  | i, last, (_, false) :: rest => lastUsed (i + 1) last rest

theorem integrate_spec {H : Bytes → Bytes} : ∀ {l : List (PublicKey × Bool)} {i last : Nat} {s s' : Keys} {r : Res Nat},
    s.integrate H i last l = (s', r) → ∃ (adds : List (Str × PublicKey)) (pool : List PublicKey),
      s' = { s with pairs := s.pairs ++ adds, unused := s.unused ++ pool } ∧ (∀ p ∈ adds, (p.2, true) ∈ l ∧ HasAddress H p.2 p.1) ∧
      (∀ k ∈ pool, (k, false) ∈ l) ∧
      (∀ n, r = .ok n → n = lastUsed i last l ∧ pool = (l.filter (!·.2)).map (·.1) ∧ ∀ k, (k, true) ∈ l → ∃ a, HasAddress H k a ∧ (a, k) ∈ adds) := by
  intro l
  induction l with
  | nil =>
    intro i last s s' r h
    cases h
    refine ⟨[], [], by simp, by simp, by simp, ?_⟩
    intro n hn; cases hn; simp [lastUsed]
  | cons x l ih =>
    intro i last s s' r h
    obtain ⟨k, b⟩ := x
    cases b with
    | true =>
      simp only [Keys.integrate] at h
      split at h
      · cases h
        exact ⟨[], [], by simp, by simp, by simp, fun n hn => by cases hn⟩
      · rename_i s1 hs1
        obtain ⟨a, ha, -, rfl⟩ := addPair_ok hs1
        obtain ⟨adds, pool, h1, h2, h3, h4⟩ := ih h
        refine ⟨(a, k) :: adds, pool, by rw [h1]; simp, ?_, fun k' hk' => List.mem_cons_of_mem _ (h3 k' hk'), ?_⟩
        · intro p hp
          rcases List.mem_cons.1 hp with rfl | hp
          · exact ⟨by simp, ha⟩
          · exact ⟨List.mem_cons_of_mem _ (h2 p hp).1, (h2 p hp).2⟩
        · intro n hn
          obtain ⟨g1, g2, g3⟩ := h4 n hn
          refine ⟨g1, by simpa using g2, ?_⟩
          intro k' hk'
          rcases List.mem_cons.1 hk' with hk' | hk'
          · simp only [Prod.mk.injEq, and_true] at hk'; subst hk'; exact ⟨a, ha, by simp⟩
          · obtain ⟨b, hb, hm⟩ := g3 k' hk'; exact ⟨b, hb, List.mem_cons_of_mem _ hm⟩
    | false =>
      simp only [Keys.integrate] at h
      obtain ⟨adds, pool, h1, h2, h3, h4⟩ := ih h
      refine ⟨adds, k :: pool, by rw [h1]; simp, fun p hp => ⟨List.mem_cons_of_mem _ (h2 p hp).1, (h2 p hp).2⟩, ?_, ?_⟩
      · intro k' hk'
        rcases List.mem_cons.1 hk' with rfl | hk'
        · simp
        · exact List.mem_cons_of_mem _ (h3 k' hk')
      · intro n hn
        obtain ⟨g1, g2, g3⟩ := h4 n hn
        refine ⟨g1, by simp [g2], ?_⟩
        intro k' hk'
        rcases List.mem_cons.1 hk' with hk' | hk'
        · simp at hk'
        · exact g3 k' hk'

theorem lastUsed_none : ∀ {l : List (PublicKey × Bool)} {i last : Nat}, (∀ p ∈ l, p.2 = false) → lastUsed i last l = last := by
  intro l
  induction l with
  | nil => intro i last _; rfl
  | cons x l ih =>
    intro i last h
    obtain ⟨k, b⟩ := x
    have : b = false := h (k, b) (by simp)
    subst this
    exact ih fun p hp => h p (List.mem_cons_of_mem _ hp)

theorem lastUsed_split : ∀ {l : List (PublicKey × Bool)} {i last : Nat}, (∃ p ∈ l, p.2 = true) → ∃ pre k post, l = pre ++ (k, true) :: post ∧
    (∀ p ∈ post, p.2 = false) ∧ lastUsed i last l = i + pre.length := by
  intro l
  induction l with
  | nil => intro i last h; simp at h
  | cons x l ih =>
    intro i last h
    obtain ⟨k, b⟩ := x
    by_cases hl : ∃ p ∈ l, p.2 = true
    · cases b with
      | true =>
        obtain ⟨pre, k', post, h1, h2, h3⟩ := ih (i := i + 1) (last := i) hl
        exact ⟨(k, true) :: pre, k', post, by rw [h1]; rfl, h2, by simp only [lastUsed, h3, List.length_cons]; omega⟩
      | false =>
        obtain ⟨pre, k', post, h1, h2, h3⟩ := ih (i := i + 1) (last := last) hl
        exact ⟨(k, false) :: pre, k', post, by rw [h1]; rfl, h2, by simp only [lastUsed, h3, List.length_cons]; omega⟩
    · have hf : ∀ p ∈ l, p.2 = false := fun p hp => by
        cases hb : p.2 with
        | false => rfl
        | true => exact absurd ⟨p, hp, hb⟩ hl
      obtain ⟨p, hp, hpt⟩ := h
      have : b = true := by
        rcases List.mem_cons.1 hp with rfl | hp
        · exact hpt
        · rw [hf p hp] at hpt; cases hpt
      subst this
      exact ⟨[], k, l, rfl, hf, by simp [lastUsed, lastUsed_none hf]⟩

theorem mapM_get {α β : Type} {f : α → Res β} : ∀ {l : List α} {r : List β}, l.mapM f = .ok r →
    r.length = l.length ∧ ∀ (i : Nat) (x : α), l[i]? = some x → ∃ y, r[i]? = some y ∧ f x = .ok y := by
  intro l
  induction l with
  | nil => intro r h; cases h; simp
  | cons a l ih =>
    intro r h
    simp only [List.mapM_cons, bind, Except.bind] at h
    split at h
    · cases h
    · rename_i b hb
      split at h
      · cases h
      · rename_i r' hr'
        cases h
        obtain ⟨h1, h2⟩ := ih hr'
        refine ⟨by simp [h1], ?_⟩
        intro i x hx
        cases i with
        | zero => simp at hx; subst hx; exact ⟨b, rfl, hb⟩
        | succ i => exact h2 i x (by simpa using hx)

theorem candidates_ok {H derive : Bytes → Bytes} (hd : Digest32 derive) {s : Keys} {ks : List PublicKey} (h : s.candidates H derive = .ok ks) :
    ks.length = s.scanCount ∧ ∀ j k, ks[j]? = some k → SeedKey H derive s.seed (s.count + j) k := by
  obtain ⟨h1, h2⟩ := mapM_get h
  rw [List.length_range] at h1
  refine ⟨h1, fun j k hj => ?_⟩
  have hlt : j < s.scanCount := by rw [← h1]; exact (List.getElem?_eq_some_iff.1 hj).1
  obtain ⟨y, hy, hk⟩ := h2 j j (by simp [hlt])
  rw [hj] at hy; cases hy
  exact (keyAt_ok hd).1 hk

theorem probe_ok {H : Bytes → Bytes} {active : Str → Res Bool} {ks : List PublicKey} {used : List Bool} (h : probe H active ks = .ok used) :
    used.length = ks.length ∧ ∀ (j : Nat) k, ks[j]? = some k → ∃ b a, used[j]? = some b ∧ HasAddress H k a ∧ active a = .ok b := by
  obtain ⟨h1, h2⟩ := mapM_get h
  refine ⟨h1, fun j k hj => ?_⟩
  obtain ⟨b, hb, hk⟩ := h2 j k hj
  simp only [bind, Except.bind] at hk
  split at hk
  · cases hk
  · rename_i a ha
    exact ⟨b, a, hb, addressOf_ok.1 ha, hk⟩

/-- What the candidates of a round are known to be. -/
theorem round_used {H derive : Bytes → Bytes} (hd : Digest32 derive) {active : Str → Res Bool} {s : Keys} {ks : List PublicKey} {used : List Bool}
    (h : s.candidates H derive = .ok ks) (h' : probe H active ks = .ok used) {j : Nat} (hj : j < s.scanCount) :
    ∃ k b a, (ks.zip used)[j]? = some (k, b) ∧ SeedKey H derive s.seed (s.count + j) k ∧ HasAddress H k a ∧ active a = .ok b ∧
      (b = true ↔ Used H derive active s.seed (s.count + j)) := by
  obtain ⟨h1, h2⟩ := candidates_ok hd h
  obtain ⟨h3, h4⟩ := probe_ok h'
  have hj' : j < ks.length := by omega
  have hk : ks[j]? = some ks[j] := List.getElem?_eq_getElem hj'
  obtain ⟨b, a, hb, ha, hab⟩ := h4 j _ hk
  refine ⟨ks[j], b, a, by simp [List.getElem?_zip_eq_some, hb], h2 j _ hk, ha, hab, ?_⟩
  constructor
  · rintro rfl; exact ⟨a, ⟨_, h2 j _ hk, ha⟩, hab⟩
  · rintro ⟨a', ⟨k', hk', ha'⟩, hact⟩
    have : k' = ks[j] := seedKey_unique hk' (h2 j _ hk)
    subst this
    rw [hasAddress_unique ha' ha, hab] at hact
    cases hact; rfl

theorem round_mem {H derive : Bytes → Bytes} (hd : Digest32 derive) {active : Str → Res Bool} {s : Keys} {ks : List PublicKey} {used : List Bool}
    (h : s.candidates H derive = .ok ks) (h' : probe H active ks = .ok used) {k : PublicKey} {b : Bool} {j : Nat} (hm : (ks.zip used)[j]? = some (k, b)) :
    j < s.scanCount ∧ SeedKey H derive s.seed (s.count + j) k ∧ (b = true ↔ Used H derive active s.seed (s.count + j)) := by
  have hj : j < s.scanCount := by
    have := (List.getElem?_eq_some_iff.1 hm).1
    have h1 := (candidates_ok hd h).1
    simp at this; omega
  obtain ⟨k', b', a, h1, h2, -, -, h3⟩ := round_used hd h h' hj
  rw [hm] at h1; cases h1
  exact ⟨hj, h2, h3⟩

/-- A round of scanning: what `s2` is. -/
structure Round (H derive : Bytes → Bytes) (active : Str → Res Bool) (s s2 : Keys) (last : Nat) : Prop where
  seed : s2.seed = s.seed
  primary : s2.primary = s.primary
  scan : s2.scanCount = s.scanCount
  lt : last < s.scanCount
  count : s2.count = s.count + (last + 1)
  isUsed : Used H derive active s.seed (s.count + last)
  isLast : ∀ j, last < j → j < s.scanCount → ¬ Used H derive active s.seed (s.count + j)
  adds : ∃ adds, s2.pairs = s.pairs ++ adds ∧ (∀ p ∈ adds, ∃ j ≤ last, SeedKey H derive s.seed (s.count + j) p.2 ∧ HasAddress H p.2 p.1 ∧
      Used H derive active s.seed (s.count + j)) ∧
    ∀ j < s.scanCount, Used H derive active s.seed (s.count + j) → ∃ k a, SeedKey H derive s.seed (s.count + j) k ∧ HasAddress H k a ∧ (a, k) ∈ adds
  pool : ∃ pool, s2.unused = (s.unused ++ pool).dropLast ∧ (∃ ks, s.candidates H derive = .ok ks ∧ pool.Sublist ks) ∧ (∀ k ∈ pool, ∃ j < last, SeedKey H derive s.seed (s.count + j) k ∧
      ¬ Used H derive active s.seed (s.count + j)) ∧
    ∀ j < last, ¬ Used H derive active s.seed (s.count + j) → ∃ k ∈ pool, SeedKey H derive s.seed (s.count + j) k

theorem round_ok {H derive : Bytes → Bytes} (hd : Digest32 derive) {active : Str → Res Bool} {s s1 : Keys} {ks : List PublicKey} {used : List Bool}
    {last : Nat} (h : s.candidates H derive = .ok ks) (h' : probe H active ks = .ok used) (ha : used.any id = true)
    (hi : s.integrate H 0 0 (ks.zip used) = (s1, .ok last)) :
    Round H derive active s { s1 with unused := dropEnd s1.unused (s1.scanCount - last), count := s1.count + (last + 1) } last := by
  obtain ⟨c1, c2⟩ := candidates_ok hd h
  obtain ⟨p1, p2⟩ := probe_ok h'
  have hlen : (ks.zip used).length = s.scanCount := by simp; omega
  have hex : ∃ p ∈ ks.zip used, p.2 = true := by
    obtain ⟨b, hb, hbt⟩ := List.any_eq_true.1 ha
    obtain ⟨j, hj⟩ := List.mem_iff_getElem?.1 hb
    have hjlt : j < used.length := (List.getElem?_eq_some_iff.1 hj).1
    have hk : ks[j]? = some (ks[j]'(by omega)) := List.getElem?_eq_getElem (by omega)
    exact ⟨(ks[j]'(by omega), b), List.mem_iff_getElem?.2 ⟨j, by simp [List.getElem?_zip_eq_some, hj]⟩, hbt⟩
  obtain ⟨adds, pool, rfl, i2, -, i4⟩ := integrate_spec hi
  obtain ⟨hlast, hpool, hadd⟩ := i4 last rfl
  obtain ⟨pre, kl, post, g1, g2, g3⟩ := lastUsed_split (i := 0) (last := 0) hex
  have hpre : last = pre.length := by omega
  have hpost : post.length = s.scanCount - 1 - last := by rw [g1] at hlen; simp at hlen; omega
  have hlt : last < s.scanCount := by rw [g1] at hlen; simp at hlen; omega
  have hfil : (post.filter (!·.2)) = post := List.filter_eq_self.2 fun p hp => by simp [g2 p hp]
  have hget : ∀ j, pre.length < j → ∀ p, (ks.zip used)[j]? = some p → p.2 = false := by
    intro j hj p hp
    rw [g1, List.getElem?_append_right (by omega)] at hp
    obtain ⟨m, hm⟩ : ∃ m, j - pre.length = m + 1 := ⟨j - pre.length - 1, by omega⟩
    rw [hm] at hp
    exact g2 p (List.mem_of_getElem? (by simpa using hp))
  have hgl : (ks.zip used)[last]? = some (kl, true) := by rw [g1, hpre]; simp
  refine ⟨rfl, rfl, rfl, hlt, rfl, (round_mem hd h h' hgl).2.2.1 rfl, ?_, ?_, ?_⟩
  · intro j hj hj' hu
    obtain ⟨k, b, a, k1, -, -, -, k2⟩ := round_used hd h h' hj'
    have := hget j (by omega) _ k1
    rw [k2.2 hu] at this; cases this
  · refine ⟨adds, rfl, ?_, ?_⟩
    · intro p hp
      obtain ⟨m1, m2⟩ := i2 p hp
      obtain ⟨j, hj⟩ := List.mem_iff_getElem?.1 m1
      obtain ⟨r1, r2, r3⟩ := round_mem hd h h' hj
      refine ⟨j, ?_, r2, m2, r3.1 rfl⟩
      refine Classical.byContradiction fun hn => ?_
      have := hget j (by omega) _ hj; cases this
    · intro j hj hu
      obtain ⟨k, b, a, k1, k2, -, -, k3⟩ := round_used hd h h' hj
      rw [k3.2 hu] at k1
      obtain ⟨a', ha', hm⟩ := hadd k (List.mem_of_getElem? k1)
      exact ⟨k, a', k2, ha', hm⟩
  · refine ⟨(pre.filter (!·.2)).map (·.1), ?_, ?_, ?_, ?_⟩
    · show dropEnd (s.unused ++ pool) (s.scanCount - last) = _
      rw [hpool, g1]
      simp only [List.filter_append, List.map_append, List.filter_cons, Bool.not_true, Bool.false_eq_true, if_false, hfil]
      rw [← List.append_assoc]
      unfold dropEnd
      rw [List.dropLast_eq_take]
      rw [List.take_append_of_le_length]
      · congr 1
        simp [hpost]; omega
      · simp [hpost]; omega
    · refine ⟨ks, h, ?_⟩
      have e : (ks.zip used).map (·.1) = ks := List.map_fst_zip (by omega)
      rw [← e, g1, List.map_append]
      exact ((List.filter_sublist).map _).trans (List.sublist_append_left _ _)
    · intro k hk
      obtain ⟨p, hp, rfl⟩ := List.mem_map.1 hk
      obtain ⟨hp1, hp2⟩ := List.mem_filter.1 hp
      obtain ⟨j, hj⟩ := List.mem_iff_getElem?.1 hp1
      have hjl : j < pre.length := (List.getElem?_eq_some_iff.1 hj).1
      have hz : (ks.zip used)[j]? = some p := by rw [g1, List.getElem?_append_left hjl]; exact hj
      obtain ⟨k, b⟩ := p
      obtain ⟨r1, r2, r3⟩ := round_mem hd h h' hz
      refine ⟨j, by omega, r2, fun hu => ?_⟩
      rw [r3.2 hu] at hp2; simp at hp2
    · intro j hj hn
      obtain ⟨k, b, a, k1, k2, -, -, k3⟩ := round_used hd h h' (show j < s.scanCount by omega)
      have hb : b = false := by
        cases b with
        | false => rfl
        | true => exact absurd (k3.1 rfl) hn
      subst hb
      rw [g1, List.getElem?_append_left (by omega)] at k1
      exact ⟨k, List.mem_map.2 ⟨(k, false), List.mem_filter.2 ⟨List.mem_of_getElem? k1, rfl⟩, rfl⟩, k2⟩

/-- The cases of a scan. -/
theorem scanLoop_cases {H derive : Bytes → Bytes} (hd : Digest32 derive) {active : Str → Res Bool} {fuel : Nat} {s : Keys} {o : Option (Keys × Res Unit)}
    (h : s.scanLoop H derive active (fuel + 1) = o) :
    (∃ e, o = some (s, .error e)) ∨ (o = some (s, .ok ()) ∧ ∀ j < s.scanCount, ¬ Used H derive active s.seed (s.count + j)) ∨
    (∃ s1 e ks used, s.candidates H derive = .ok ks ∧ probe H active ks = .ok used ∧ s.integrate H 0 0 (ks.zip used) = (s1, .error e) ∧
      o = some (s1, .error e)) ∨
    ∃ s2 last, Round H derive active s s2 last ∧
      ((last + 1 = s.scanCount ∧ o = s2.scanLoop H derive active fuel) ∨ (last + 1 < s.scanCount ∧ o = some (s2, .ok ()))) := by
  rw [Keys.scanLoop] at h
  split at h
  · rename_i e he; exact .inl ⟨e, h.symm⟩
  · rename_i ks hks
    split at h
    · rename_i e he; exact .inl ⟨e, h.symm⟩
    · rename_i used hu
      split at h
      · rename_i hn
        right; left
        refine ⟨h.symm, fun j hj hus => ?_⟩
        obtain ⟨k, b, a, k1, -, -, -, k2⟩ := round_used hd hks hu hj
        rw [k2.2 hus] at k1
        have hm : true ∈ used := (List.of_mem_zip (List.mem_of_getElem? k1)).2
        simp only [Bool.not_eq_true', Bool.not_eq_true] at hn
        have := List.any_eq_false.1 hn true hm
        simp at this
      · rename_i hn
        have ha : used.any id = true := by simpa using hn
        split at h
        · rename_i s1 e hi; exact .inr (.inr (.inl ⟨s1, e, ks, used, hks, hu, hi, h.symm⟩))
        · rename_i s1 last hi
          have hr := round_ok hd hks hu ha hi
          right; right; right
          refine ⟨_, last, hr, ?_⟩
          have hl := (candidates_ok hd hks).1
          have hl' := (probe_ok hu).1
          have hlt := hr.lt
          have hpos : 0 < s.scanCount := by omega
          obtain ⟨k, b, a, k1, -, -, -, k2⟩ := round_used hd hks hu (show s.scanCount - 1 < s.scanCount by omega)
          have hb : used[s.scanCount - 1]? = some b := (List.getElem?_zip_eq_some.1 k1).2
          have hgl : used.getLast? = some b := by rw [List.getLast?_eq_getElem?, hl', hl]; exact hb
          rw [hgl] at h
          cases b with
          | true =>
            left
            refine ⟨?_, by rw [← h]; simp⟩
            refine Classical.byContradiction fun hne => ?_
            exact hr.isLast (s.scanCount - 1) (by omega) (by omega) (k2.1 rfl)
          | false =>
            right
            refine ⟨?_, by rw [← h]; simp⟩
            have : last ≠ s.scanCount - 1 := by
              intro he
              have := hr.isUsed
              rw [he] at this
              have := k2.2 this; cases this
            omega

theorem scanLoop_mono {H derive : Bytes → Bytes} (hd : Digest32 derive) {active : Str → Res Bool} : ∀ {fuel : Nat} {s s' : Keys} {r : Res Unit},
    s.scanLoop H derive active fuel = some (s', r) → s.count ≤ s'.count ∧ s'.seed = s.seed ∧ s'.scanCount = s.scanCount ∧ s'.primary = s.primary := by
  intro fuel
  induction fuel with
  | zero => intro s s' r h; cases h
  | succ fuel ih =>
    intro s s' r h
    rcases scanLoop_cases hd h with ⟨e, h⟩ | ⟨h, hno⟩ | ⟨s1, e, ks, used, -, -, hi, h⟩ | ⟨s2, last, hr, hc⟩
    · cases h; exact ⟨Nat.le_refl _, rfl, rfl, rfl⟩
    · cases h; exact ⟨Nat.le_refl _, rfl, rfl, rfl⟩
    · cases h
      obtain ⟨x, y, rfl, -⟩ := integrate_spec hi
      exact ⟨Nat.le_refl _, rfl, rfl, rfl⟩
    · have h1 := hr.count
      have h2 := hr.seed
      have h3 := hr.scan
      have h4 := hr.primary
      rcases hc with ⟨-, h⟩ | ⟨-, h⟩
      · obtain ⟨g1, g2, g3, g4⟩ := ih h.symm; exact ⟨by omega, g2.trans h2, g3.trans h3, g4.trans h4⟩
      · cases h; exact ⟨by omega, h2, h3, h4⟩

theorem scanLoop_finds {H derive : Bytes → Bytes} (hd : Digest32 derive) {active : Str → Res Bool} : ∀ {fuel : Nat} {s s' : Keys}, 0 < s.scanCount →
    s.scanLoop H derive active fuel = some (s', .ok ()) →
    s'.seed = s.seed ∧ (∃ adds, s'.pairs = s.pairs ++ adds ∧ ∀ p ∈ adds, ∃ i, SeedKey H derive s.seed i p.2 ∧ HasAddress H p.2 p.1 ∧
        Used H derive active s.seed i ∧ LookedAt (Used H derive active s.seed) s.count s.scanCount i ∧ i < s'.count) ∧
      ∀ i, LookedAt (Used H derive active s.seed) s.count s.scanCount i → Used H derive active s.seed i → HasKey H derive s' i ∧ i < s'.count := by
  intro fuel
  induction fuel with
  | zero => intro s s' _ h; cases h
  | succ fuel ih =>
    intro s s' hn h
    rcases scanLoop_cases hd h with ⟨e, h⟩ | ⟨h, hno⟩ | ⟨s1, e, ks, used, -, -, -, h⟩ | ⟨s2, last, hr, hc⟩
    · cases h
    · cases h
      refine ⟨rfl, ⟨[], by simp, by simp⟩, ?_⟩
      rintro i ⟨hle, hl⟩ hu
      exfalso
      by_cases hi : i < s.count + s.scanCount
      · refine hno (i - s.count) (by omega) ?_
        rw [show s.count + (i - s.count) = i by omega]; exact hu
      · have := hl 0 (by omega)
        refine hno (s.scanCount - 1) (by omega) ?_
        rw [show s.count + (s.scanCount - 1) = s.count + (0 + 1) * s.scanCount - 1 by omega]; exact this
    · cases h
    · obtain ⟨adds, a1, a2, a3⟩ := hr.adds
      have hfirst : ∀ j, j ≤ last → LookedAt (Used H derive active s.seed) s.count s.scanCount (s.count + j) := fun j hj =>
        ⟨by omega, fun r hle => by
          have h1 : 1 * s.scanCount ≤ (r + 1) * s.scanCount := Nat.mul_le_mul_right _ (by omega)
          have := hr.lt
          omega⟩
      rcases hc with ⟨hl, h⟩ | ⟨hl, h⟩
      · have hcount : s2.count = s.count + s.scanCount := by rw [hr.count]; omega
        have shift : ∀ i, LookedAt (Used H derive active s.seed) (s.count + s.scanCount) s.scanCount i →
            LookedAt (Used H derive active s.seed) s.count s.scanCount i := by
          rintro i ⟨h1, h2⟩
          refine ⟨by omega, fun r hle => ?_⟩
          cases r with
          | zero =>
            have := hr.isUsed
            rw [show s.count + (0 + 1) * s.scanCount - 1 = s.count + last by omega]; exact this
          | succ r =>
            have e : s.count + (r + 1 + 1) * s.scanCount = s.count + s.scanCount + (r + 1) * s.scanCount := by rw [Nat.add_mul (r + 1) 1]; omega
            rw [e] at hle ⊢
            exact h2 r hle
        obtain ⟨i1, ⟨adds', i2, i2'⟩, i3⟩ := ih (by rw [hr.scan]; exact hn) h.symm
        rw [hcount, hr.scan, hr.seed] at i2' i3
        refine ⟨i1.trans hr.seed, ⟨adds ++ adds', by rw [i2, a1, List.append_assoc], ?_⟩, ?_⟩
        · intro p hp
          rcases List.mem_append.1 hp with hp | hp
          · obtain ⟨j, j1, j2, j3, j4⟩ := a2 p hp
            refine ⟨s.count + j, j2, j3, j4, hfirst j j1, ?_⟩
            have hmono : s2.count ≤ s'.count := by
              exact (scanLoop_mono hd h.symm).1
            have := hr.lt
            omega
          · obtain ⟨i, j1, j2, j3, j4, j5⟩ := i2' p hp
            exact ⟨i, j1, j2, j3, shift i j4, j5⟩
        · rintro i ⟨hle, hlk⟩ hu
          by_cases hi : i < s.count + s.scanCount
          · have hu' : Used H derive active s.seed (s.count + (i - s.count)) := by rw [show s.count + (i - s.count) = i by omega]; exact hu
            obtain ⟨k, a, k1, k2, k3⟩ := a3 (i - s.count) (by omega) hu'
            rw [show s.count + (i - s.count) = i by omega] at k1
            refine ⟨⟨k, a, by rw [i1, hr.seed]; exact k1, k2, by rw [i2, a1]; simp [k3]⟩, ?_⟩
            have hmono : s2.count ≤ s'.count := by
              exact (scanLoop_mono hd h.symm).1
            omega
          · refine i3 i ⟨by omega, fun r hr' => ?_⟩ hu
            have e : s.count + (r + 1 + 1) * s.scanCount = s.count + s.scanCount + (r + 1) * s.scanCount := by rw [Nat.add_mul (r + 1) 1]; omega
            have := hlk (r + 1) (by rw [e]; exact hr')
            rw [e] at this; exact this
      · cases h
        refine ⟨hr.seed, ⟨adds, a1, ?_⟩, ?_⟩
        · intro p hp
          obtain ⟨j, j1, j2, j3, j4⟩ := a2 p hp
          exact ⟨s.count + j, j2, j3, j4, hfirst j j1, by have := hr.count; omega⟩
        · rintro i ⟨hle, hlk⟩ hu
          have hi : i < s.count + s.scanCount := by
            refine Classical.byContradiction fun hge => ?_
            have := hlk 0 (by omega)
            rw [show s.count + (0 + 1) * s.scanCount - 1 = s.count + (s.scanCount - 1) by omega] at this
            exact hr.isLast _ (by omega) (by omega) this
          have hu' : Used H derive active s.seed (s.count + (i - s.count)) := by rw [show s.count + (i - s.count) = i by omega]; exact hu
          obtain ⟨k, a, k1, k2, k3⟩ := a3 (i - s.count) (by omega) hu'
          rw [show s.count + (i - s.count) = i by omega] at k1
          refine ⟨⟨k, a, by rw [hr.seed]; exact k1, k2, by rw [a1]; simp [k3]⟩, ?_⟩
          have := hr.count
          refine Classical.byContradiction fun hge => ?_
          exact hr.isLast (i - s.count) (by omega) (by omega) hu'

/-- **C58.** After a scan (of a wallet without pooled keys) every key the scan looked at that is used is in the wallet, for every pattern of
used keys. -/
theorem C58_scan_finds (H derive : Bytes → Bytes) (hd : Digest32 derive) (active : Str → Res Bool) (fuel : Nat) (s s' : Keys) (hu : s.unused = [])
    (hn : s.scanCount ≠ 0) (h : s.scan H derive active fuel = some (s', .ok ())) (i : Nat)
    (hl : LookedAt (Used H derive active s.seed) s.count s.scanCount i) (hi : Used H derive active s.seed i) : HasKey H derive s' i := by
  simp only [Keys.scan, hu, List.length_nil, ne_eq, not_true_eq_false, hn, or_self, if_false] at h
  exact ((scanLoop_finds hd (by omega) h).2.2 i hl hi).1

/-- **C58.** A scan keeps the keys the wallet has and adds nothing but used keys it looked at. -/
theorem C58_scan_adds (H derive : Bytes → Bytes) (hd : Digest32 derive) (active : Str → Res Bool) (fuel : Nat) (s s' : Keys)
    (h : s.scan H derive active fuel = some (s', .ok ())) :
    ∃ adds, s'.pairs = s.pairs ++ adds ∧ ∀ p ∈ adds, ∃ i, SeedKey H derive s.seed i p.2 ∧ HasAddress H p.2 p.1 ∧ Used H derive active s.seed i ∧
      LookedAt (Used H derive active s.seed) s.count s.scanCount i ∧ i < s'.count := by
  unfold Keys.scan at h
  split at h
  · cases h; exact ⟨[], by simp, by simp⟩
  · rename_i hc
    exact (scanLoop_finds hd (by omega) h).2.1

theorem scanLoop_ends {H derive : Bytes → Bytes} (hd : Digest32 derive) {active : Str → Res Bool} : ∀ {fuel : Nat} {s : Keys},
    s.scanLoop H derive active fuel = none → ∀ r < fuel, Used H derive active s.seed (s.count + (r + 1) * s.scanCount - 1) := by
  intro fuel
  induction fuel with
  | zero => intro s _ r hr; omega
  | succ fuel ih =>
    intro s h r hr
    rcases scanLoop_cases hd h with ⟨e, h⟩ | ⟨h, hno⟩ | ⟨s1, e, ks, used, -, -, hi, h⟩ | ⟨s2, last, hrd, hc⟩
    · cases h
    · cases h
    · cases h
    · rcases hc with ⟨hl, h⟩ | ⟨-, h⟩
      · cases r with
        | zero =>
          have := hrd.isUsed
          rw [show s.count + (0 + 1) * s.scanCount - 1 = s.count + last by omega]; exact this
        | succ r =>
          have := ih h.symm r (by omega)
          rw [hrd.seed, hrd.count, hrd.scan] at this
          rw [show s.count + (r + 1 + 1) * s.scanCount - 1 = s.count + (last + 1) + (r + 1) * s.scanCount - 1 by
            rw [Nat.add_mul (r + 1) 1]; omega]
          exact this
      · cases h

/-- **C58.** A scan ends if only finitely many keys are used. -/
theorem C58_scan_ends (H derive : Bytes → Bytes) (hd : Digest32 derive) (active : Str → Res Bool) (s : Keys) (N : Nat)
    (hN : ∀ i, N ≤ i → ¬ Used H derive active s.seed i) : s.scan H derive active (N + 1) ≠ none := by
  unfold Keys.scan
  split
  · simp
  · rename_i hc
    intro h
    refine hN _ ?_ (scanLoop_ends hd h N (by omega))
    have : (N + 1) * 1 ≤ (N + 1) * s.scanCount := Nat.mul_le_mul_left _ (by omega)
    omega

/-! ## Histories -/

theorem candidate_mem {H derive : Bytes → Bytes} (hd : Digest32 derive) {active : Str → Res Bool} {s : Keys} {ks : List PublicKey} {used : List Bool}
    (h : s.candidates H derive = .ok ks) (h' : probe H active ks = .ok used) {k : PublicKey} {b : Bool} (hm : (k, b) ∈ ks.zip used) :
    ∃ i, s.count ≤ i ∧ SeedKey H derive s.seed i k := by
  obtain ⟨j, hj⟩ := List.mem_iff_getElem?.1 hm
  exact ⟨s.count + j, by omega, (round_mem hd h h' hj).2.1⟩

/-- What a step can add: keys of the seed that are new, or come from the pool. -/
theorem scanLoop_new {H derive : Bytes → Bytes} (hd : Digest32 derive) {active : Str → Res Bool} : ∀ {fuel : Nat} {s s' : Keys} {r : Res Unit},
    s.scanLoop H derive active fuel = some (s', r) →
    (∃ adds, s'.pairs = s.pairs ++ adds ∧ ∀ p ∈ adds, ∃ i, s.count ≤ i ∧ SeedKey H derive s.seed i p.2 ∧ HasAddress H p.2 p.1) ∧
      ∀ k ∈ s'.unused, k ∈ s.unused ∨ ∃ i, s.count ≤ i ∧ SeedKey H derive s.seed i k := by
  intro fuel
  induction fuel with
  | zero => intro s s' r h; cases h
  | succ fuel ih =>
    intro s s' r h
    rcases scanLoop_cases hd h with ⟨e, h⟩ | ⟨h, hno⟩ | ⟨s1, e, ks, used, hk, hp, hi, h⟩ | ⟨s2, last, hr, hc⟩
    · cases h; exact ⟨⟨[], by simp, by simp⟩, fun k hk => .inl hk⟩
    · cases h; exact ⟨⟨[], by simp, by simp⟩, fun k hk => .inl hk⟩
    · cases h
      obtain ⟨adds, pool, rfl, h2, h3, -⟩ := integrate_spec hi
      refine ⟨⟨adds, rfl, fun p hp' => ?_⟩, fun k hk' => ?_⟩
      · obtain ⟨m1, m2⟩ := h2 p hp'
        obtain ⟨i, i1, i2⟩ := candidate_mem hd hk hp m1
        exact ⟨i, i1, i2, m2⟩
      · rcases List.mem_append.1 hk' with hk' | hk'
        · exact .inl hk'
        · exact .inr (candidate_mem hd hk hp (h3 k hk'))
    · obtain ⟨adds, a1, a2, -⟩ := hr.adds
      obtain ⟨pool, b1, -, b2, -⟩ := hr.pool
      have hs2 : (∀ p ∈ adds, ∃ i, s.count ≤ i ∧ SeedKey H derive s.seed i p.2 ∧ HasAddress H p.2 p.1) ∧
          ∀ k ∈ s2.unused, k ∈ s.unused ∨ ∃ i, s.count ≤ i ∧ SeedKey H derive s.seed i k := by
        refine ⟨fun p hp => ?_, fun k hk => ?_⟩
        · obtain ⟨j, -, j2, j3, -⟩ := a2 p hp; exact ⟨s.count + j, by omega, j2, j3⟩
        · rw [b1] at hk
          rcases List.mem_append.1 (List.dropLast_subset _ hk) with hk | hk
          · exact .inl hk
          · obtain ⟨j, -, j2, -⟩ := b2 k hk; exact .inr ⟨s.count + j, by omega, j2⟩
      have hcnt := hr.count
      rcases hc with ⟨-, h⟩ | ⟨-, h⟩
      · obtain ⟨⟨adds', c1, c2⟩, c3⟩ := ih h.symm
        rw [hr.seed] at c2 c3
        refine ⟨⟨adds ++ adds', by rw [c1, a1, List.append_assoc], ?_⟩, ?_⟩
        · intro p hp
          rcases List.mem_append.1 hp with hp | hp
          · exact hs2.1 p hp
          · obtain ⟨i, i1, i2⟩ := c2 p hp; exact ⟨i, by omega, i2⟩
        · intro k hk
          rcases c3 k hk with hk | ⟨i, i1, i2⟩
          · exact hs2.2 k hk
          · exact .inr ⟨i, by omega, i2⟩
      · cases h; exact ⟨⟨adds, a1, hs2.1⟩, hs2.2⟩

/-- One step: the seed stays, no key is removed, and what is added comes from the pool or has a new number. -/
theorem keyStep_new {H derive : Bytes → Bytes} (hd : Digest32 derive) {s s' : Keys} (h : KeyStep H derive s s') :
    s'.seed = s.seed ∧ s.count ≤ s'.count ∧ s'.primary = s.primary ∧
    (∃ adds, s'.pairs = s.pairs ++ adds ∧ ∀ p ∈ adds, HasAddress H p.2 p.1 ∧ (p.2 ∈ s.unused ∨ ∃ i, s.count ≤ i ∧ SeedKey H derive s.seed i p.2)) ∧
      ∀ k ∈ s'.unused, k ∈ s.unused ∨ ∃ i, s.count ≤ i ∧ SeedKey H derive s.seed i k := by
  cases h with
  | new _ k h =>
    unfold Keys.new1 at h
    split at h
    · rename_i k0 rest hun
      simp only [bind, Except.bind] at h
      split at h
      · cases h
      · rename_i s1 hs1
        cases h
        obtain ⟨a, ha, -, rfl⟩ := addPair_ok hs1
        refine ⟨rfl, Nat.le_refl _, rfl, ⟨[(a, k)], rfl, ?_⟩, fun k' hk' => ?_⟩
        · intro p hp
          simp only [List.mem_singleton] at hp; subst hp
          exact ⟨ha, .inl (by rw [hun]; simp)⟩
        · exact .inl (by rw [hun]; exact List.mem_cons_of_mem _ hk')
    · rename_i hun
      simp only [bind, Except.bind] at h
      split at h
      · cases h
      · rename_i k1 hk1
        split at h
        · cases h
        · rename_i s1 hs1
          cases h
          obtain ⟨a, ha, -, rfl⟩ := addPair_ok hs1
          refine ⟨rfl, by simp, rfl, ⟨[(a, k)], rfl, ?_⟩, fun k' hk' => .inl hk'⟩
          intro p hp
          simp only [List.mem_singleton] at hp; subst hp
          exact ⟨ha, .inr ⟨s.count, Nat.le_refl _, (keyAt_ok hd).1 hk1⟩⟩
  | scan active fuel _ r h =>
    unfold Keys.scan at h
    split at h
    · cases h; exact ⟨rfl, Nat.le_refl _, rfl, ⟨[], by simp, by simp⟩, fun k hk => .inl hk⟩
    · obtain ⟨m1, m2, m3, m4⟩ := scanLoop_mono hd h
      obtain ⟨⟨adds, c1, c2⟩, c3⟩ := scanLoop_new hd h
      refine ⟨m2, m1, m4, ⟨adds, c1, fun p hp => ?_⟩, c3⟩
      obtain ⟨i, i1, i2, i3⟩ := c2 p hp
      exact ⟨i3, .inr ⟨i, i1, i2⟩⟩

/-- **C59.** Whatever happens to a wallet — keys are asked for, scans succeed or are interrupted by any exception — no key is lost, the primary
address stays, and every key in the wallet is a key of the seed, listed under its address. -/
theorem C59_seed_keys (H derive : Bytes → Bytes) (hd : Digest32 derive) (seed : Bytes) (n sc : Int) (s s' : Keys)
    (h : Keys.init H derive seed n sc = .ok s) (hs : KeySteps H derive s s') :
    s'.seed = seed ∧ s'.primary = s.primary ∧ (∃ adds, s'.pairs = s.pairs ++ adds) ∧
      (∀ p ∈ s'.pairs, ∃ i, SeedKey H derive seed i p.2 ∧ HasAddress H p.2 p.1) ∧ ∀ k ∈ s'.unused, ∃ i, SeedKey H derive seed i k := by
  induction hs with
  | refl =>
    obtain ⟨h1, h2, -, h4, -⟩ := C59_new_wallet H derive hd seed n sc s h
    refine ⟨h2, rfl, ⟨[], by simp⟩, fun p hp => ?_, by simp [h4]⟩
    obtain ⟨i, hi⟩ := List.mem_iff_getElem?.1 hp
    exact ⟨i, h2 ▸ (h1.2 i p hi).1, (h1.2 i p hi).2⟩
  | step _ h' ih =>
    obtain ⟨i1, i2, ⟨adds, i3⟩, i4, i5⟩ := ih
    obtain ⟨s1, -, s3, ⟨adds', s4, s5⟩, s6⟩ := keyStep_new hd h'
    rw [i1] at s1 s5 s6
    refine ⟨s1, s3.trans i2, ⟨adds ++ adds', by rw [s4, i3, List.append_assoc]⟩, fun p hp => ?_, fun k hk => ?_⟩
    · rw [s4] at hp
      rcases List.mem_append.1 hp with hp | hp
      · exact i4 p hp
      · obtain ⟨t1, t2⟩ := s5 p hp
        rcases t2 with t2 | ⟨i, -, t2⟩
        · obtain ⟨i, hi⟩ := i5 _ t2; exact ⟨i, hi, t1⟩
        · exact ⟨i, t2, t1⟩
    · rcases s6 k hk with hk | ⟨i, -, hi⟩
      · exact i5 k hk
      · exact ⟨i, hi⟩

/-- What is known about the keys of a wallet at any time. -/
structure Sound (H derive : Bytes → Bytes) (s : Keys) : Prop where
  pairs : ∀ p ∈ s.pairs, ∃ i < s.count, SeedKey H derive s.seed i p.2 ∧ HasAddress H p.2 p.1
  unused : ∀ k ∈ s.unused, ∃ i < s.count, SeedKey H derive s.seed i k
  nodup : s.unused.Nodup
  apart : ∀ k ∈ s.unused, ∀ p ∈ s.pairs, p.2 ≠ k

theorem seedKey_index {H derive : Bytes → Bytes} (hd : Digest32 derive) {seed : Bytes} (hdist : DistinctAddresses H derive seed) {i j : Nat} {k : PublicKey}
    (h : SeedKey H derive seed i k) (h' : SeedKey H derive seed j k) : i = j := by
  obtain ⟨a, ha⟩ := seedKey_address hd h
  exact hdist i j a ⟨k, h, ha⟩ ⟨k, h', ha⟩

theorem addPair_total {H derive : Bytes → Bytes} (hd : Digest32 derive) {s : Keys} (hdist : DistinctAddresses H derive s.seed) {i : Nat} {k : PublicKey}
    (hk : SeedKey H derive s.seed i k) (hp : ∀ p ∈ s.pairs, ∃ j, j ≠ i ∧ SeedKey H derive s.seed j p.2 ∧ HasAddress H p.2 p.1) :
    ∃ s', s.addPair H k = .ok s' := by
  obtain ⟨a, ha⟩ := seedKey_address hd hk
  simp only [Keys.addPair, addressOf_ok.2 ha, bind, Except.bind]
  split
  · rename_i hany
    obtain ⟨p, hp1, hp2⟩ := List.any_eq_true.1 hany
    obtain ⟨j, hne, hj, hja⟩ := hp p hp1
    simp only [decide_eq_true_eq] at hp2
    rw [hp2] at hja
    exact absurd (hdist i j a ⟨k, hk, ha⟩ ⟨p.2, hj, hja⟩).symm hne
  · exact ⟨_, rfl⟩

theorem integrate_total {H derive : Bytes → Bytes} (hd : Digest32 derive) : ∀ {l : List (PublicKey × Bool)} {i last c : Nat} {s s' : Keys} {r : Res Nat},
    DistinctAddresses H derive s.seed → (∀ p ∈ s.pairs, ∃ j < c, SeedKey H derive s.seed j p.2 ∧ HasAddress H p.2 p.1) →
    (∀ j k b, l[j]? = some (k, b) → SeedKey H derive s.seed (c + j) k) → s.integrate H i last l = (s', r) → ∃ n, r = .ok n := by
  intro l
  induction l with
  | nil => intro i last c s s' r _ _ _ h; cases h; exact ⟨_, rfl⟩
  | cons x l ih =>
    intro i last c s s' r hdist hp hl h
    obtain ⟨k, b⟩ := x
    have hk : SeedKey H derive s.seed c k := hl 0 k b rfl
    have hl' : ∀ j k b, l[j]? = some (k, b) → SeedKey H derive s.seed (c + 1 + j) k := fun j k b hj => by
      have := hl (j + 1) k b (by simpa using hj)
      rw [show c + (j + 1) = c + 1 + j by omega] at this; exact this
    cases b with
    | true =>
      simp only [Keys.integrate] at h
      obtain ⟨s1, hs1⟩ := addPair_total hd hdist hk (fun p hpm => by obtain ⟨j, h1, h2⟩ := hp p hpm; exact ⟨j, by omega, h2⟩)
      rw [hs1] at h
      obtain ⟨a, ha, -, rfl⟩ := addPair_ok hs1
      refine ih (s := { s with pairs := s.pairs ++ [(a, k)] }) hdist (fun p hpm => ?_) hl' h
      rcases List.mem_append.1 hpm with hpm | hpm
      · obtain ⟨j, h1, h2⟩ := hp p hpm; exact ⟨j, by omega, h2⟩
      · simp only [List.mem_singleton] at hpm; subst hpm; exact ⟨c, by omega, hk, ha⟩
    | false =>
      simp only [Keys.integrate] at h
      refine ih (s := { s with unused := s.unused ++ [k] }) hdist (fun p hpm => ?_) hl' h
      obtain ⟨j, h1, h2⟩ := hp p hpm; exact ⟨j, by omega, h2⟩

theorem candidates_nodup {H derive : Bytes → Bytes} (hd : Digest32 derive) {s : Keys} (hdist : DistinctAddresses H derive s.seed) {ks : List PublicKey}
    (h : s.candidates H derive = .ok ks) : ks.Nodup := by
  rw [List.Nodup, List.pairwise_iff_getElem]
  intro i j hi hj hij he
  have h1 := (candidates_ok hd h).2 i _ (List.getElem?_eq_getElem hi)
  have h2 := (candidates_ok hd h).2 j _ (List.getElem?_eq_getElem hj)
  rw [he] at h1
  have := seedKey_index hd hdist h1 h2
  omega

theorem round_sound {H derive : Bytes → Bytes} (hd : Digest32 derive) {active : Str → Res Bool} {s s2 : Keys} {last : Nat}
    (hdist : DistinctAddresses H derive s.seed) (hs : Sound H derive s) (hr : Round H derive active s s2 last) : Sound H derive s2 := by
  obtain ⟨adds, a1, a2, -⟩ := hr.adds
  obtain ⟨pool, b1, ⟨ks, b2, b3⟩, b4, -⟩ := hr.pool
  have hc := hr.count
  have hun : ∀ k ∈ s2.unused, k ∈ s.unused ∨ k ∈ pool := fun k hk => by
    rw [b1] at hk; exact List.mem_append.1 (List.dropLast_subset _ hk)
  refine ⟨fun p hp => ?_, fun k hk => ?_, ?_, fun k hk p hp he => ?_⟩
  · rw [a1] at hp
    rcases List.mem_append.1 hp with hp | hp
    · obtain ⟨i, i1, i2⟩ := hs.pairs p hp; exact ⟨i, by omega, by rw [hr.seed]; exact i2⟩
    · obtain ⟨j, j1, j2, j3, -⟩ := a2 p hp; exact ⟨s.count + j, by omega, by rw [hr.seed]; exact ⟨j2, j3⟩⟩
  · rcases hun k hk with hk | hk
    · obtain ⟨i, i1, i2⟩ := hs.unused k hk; exact ⟨i, by omega, by rw [hr.seed]; exact i2⟩
    · obtain ⟨j, j1, j2, -⟩ := b4 k hk; exact ⟨s.count + j, by omega, by rw [hr.seed]; exact j2⟩
  · rw [b1]
    refine List.Nodup.sublist (List.dropLast_sublist _) ?_
    rw [List.nodup_append]
    refine ⟨hs.nodup, (candidates_nodup hd hdist b2).sublist b3, fun k hk k' hk' he => ?_⟩
    subst he
    obtain ⟨i, i1, i2⟩ := hs.unused k hk
    obtain ⟨j, j1, j2, -⟩ := b4 k hk'
    have := seedKey_index hd hdist i2 j2
    omega
  · subst he
    rw [a1] at hp
    rcases hun _ hk with hk | hk <;> rcases List.mem_append.1 hp with hp | hp
    · exact hs.apart _ hk p hp rfl
    · obtain ⟨i, i1, i2⟩ := hs.unused _ hk
      obtain ⟨j, j1, j2, j3, -⟩ := a2 p hp
      have := seedKey_index hd hdist i2 j2; omega
    · obtain ⟨i, i1, i2, -⟩ := hs.pairs p hp
      obtain ⟨j, j1, j2, -⟩ := b4 _ hk
      have := seedKey_index hd hdist i2 j2; omega
    · obtain ⟨i, i1, i2, -, i3⟩ := a2 p hp
      obtain ⟨j, j1, j2, j3⟩ := b4 _ hk
      have := seedKey_index hd hdist i2 j2
      rw [this] at i3; exact j3 i3

theorem candidates_error {H derive : Bytes → Bytes} (hd : Digest32 derive) {s : Keys} {e : Err} (h : s.candidates H derive = .error e) :
    e = .integerOutOfRange ∧ 2^64 < s.count + s.scanCount := by
  have key : ∀ (l : List Nat), (l.mapM fun off => keyAt H derive s.seed (s.count + off)) = .error e → e = .integerOutOfRange ∧ ∃ x ∈ l, 2^64 ≤ s.count + x := by
    intro l
    induction l with
    | nil => intro h; cases h
    | cons x l ih =>
      intro h
      simp only [List.mapM_cons, bind, Except.bind] at h
      split at h
      · rename_i e' he'
        cases h
        by_cases hx : s.count + x < 2^64
        · obtain ⟨k, hk⟩ := seedKey_exists H derive s.seed hx
          rw [(keyAt_ok hd).2 hk] at he'; cases he'
        · refine ⟨?_, x, by simp, by omega⟩
          simp only [keyAt, keyInput_eq, hx, if_false, bind, Except.bind] at he'
          cases he'; rfl
      · split at h
        · rename_i e' he'
          cases h
          obtain ⟨h1, y, h2, h3⟩ := ih he'
          exact ⟨h1, y, List.mem_cons_of_mem _ h2, h3⟩
        · cases h
  obtain ⟨h1, x, h2, h3⟩ := key _ h
  exact ⟨h1, by have := List.mem_range.1 h2; omega⟩

theorem probe_error {H derive : Bytes → Bytes} (hd : Digest32 derive) {active : Str → Res Bool} {s : Keys} {ks : List PublicKey} {e : Err}
    (h : s.candidates H derive = .ok ks) (h' : probe H active ks = .error e) : ∃ a, active a = .error e := by
  have key : ∀ l : List PublicKey, (∀ k ∈ l, ∃ i, SeedKey H derive s.seed i k) → probe H active l = .error e → ∃ a, active a = .error e := by
    intro l
    induction l with
    | nil => intro _ h; cases h
    | cons k l ih =>
      intro hl h
      simp only [probe, List.mapM_cons, bind, Except.bind] at h
      obtain ⟨i, hi⟩ := hl k (by simp)
      obtain ⟨a, ha⟩ := seedKey_address hd hi
      rw [addressOf_ok.2 ha] at h
      simp only at h
      split at h
      · rename_i e' he'; cases h; exact ⟨a, he'⟩
      · split at h
        · rename_i e' he'
          cases h
          exact ih (fun k hk => hl k (List.mem_cons_of_mem _ hk)) he'
        · cases h
  refine key ks (fun k hk => ?_) h'
  obtain ⟨j, hj⟩ := List.mem_iff_getElem?.1 hk
  exact ⟨_, (candidates_ok hd h).2 j k hj⟩

theorem scanLoop_sound {H derive : Bytes → Bytes} (hd : Digest32 derive) {active : Str → Res Bool} : ∀ {fuel : Nat} {s s' : Keys} {r : Res Unit},
    DistinctAddresses H derive s.seed → Sound H derive s → s.scanLoop H derive active fuel = some (s', r) →
    Sound H derive s' ∧ ∀ e, r = .error e → (e = .integerOutOfRange ∧ 2^64 < s'.count + s'.scanCount) ∨ ∃ a, active a = .error e := by
  intro fuel
  induction fuel with
  | zero => intro s s' r _ _ h; cases h
  | succ fuel ih =>
    intro s s' r hdist hs h
    have hraw := h
    rcases scanLoop_cases hd h with ⟨e, h⟩ | ⟨h, hno⟩ | ⟨s1, e, ks, used, hk, hp, hi, h⟩ | ⟨s2, last, hr, hc⟩
    · cases h
      refine ⟨hs, fun e' he => ?_⟩
      cases he
      rw [Keys.scanLoop] at hraw
      split at hraw
      · rename_i e' he'; cases hraw; exact .inl (candidates_error hd he')
      · rename_i ks hks
        split at hraw
        · rename_i e' he'; cases hraw; exact .inr (probe_error hd hks he')
        · rename_i used hus
          split at hraw
          · cases hraw
          · split at hraw
            · rename_i s1 e1 hi
              obtain ⟨n, hn⟩ := integrate_total hd (c := s.count) hdist hs.pairs (fun j k b hj => (round_mem hd hks hus hj).2.1) hi
              cases hn
            · rename_i s1 last hi
              obtain ⟨adds, pool, rfl, -⟩ := integrate_spec hi
              dsimp only at hraw
              split at hraw
              · have hcnt := (scanLoop_mono hd hraw).1
                simp at hcnt
                omega
              · simp at hraw
    · cases h; exact ⟨hs, fun e he => by cases he⟩
    · obtain ⟨n, hn⟩ := integrate_total hd (c := s.count) hdist hs.pairs (fun j k b hj => (round_mem hd hk hp hj).2.1) hi
      cases hn
    · have hs2 := round_sound hd hdist hs hr
      rcases hc with ⟨-, h⟩ | ⟨-, h⟩
      · exact ih (by rw [hr.seed]; exact hdist) hs2 h.symm
      · cases h; exact ⟨hs2, fun e he => by cases he⟩

theorem new1_sound {H derive : Bytes → Bytes} (hd : Digest32 derive) {s : Keys} (hdist : DistinctAddresses H derive s.seed) (hs : Sound H derive s) :
    (∀ s' k, s.new1 H derive = .ok (s', k) → Sound H derive s') ∧ ∀ e, s.new1 H derive = .error e → e = .integerOutOfRange ∧ 2^64 ≤ s.count := by
  unfold Keys.new1
  split
  · rename_i k rest hun
    have hkm : k ∈ s.unused := by rw [hun]; simp
    obtain ⟨i, i1, i2⟩ := hs.unused k hkm
    obtain ⟨s1, hs1⟩ := addPair_total (s := { s with unused := rest }) hd hdist i2 (fun p hp => by
      obtain ⟨j, j1, j2, j3⟩ := hs.pairs p hp
      refine ⟨j, fun he => ?_, j2, j3⟩
      subst he
      exact hs.apart k hkm p hp (seedKey_unique j2 i2))
    simp only [hs1, bind, Except.bind, pure, Except.pure]
    refine ⟨fun s' k' h => ?_, fun e h => by cases h⟩
    cases h
    obtain ⟨a, ha, -, rfl⟩ := addPair_ok hs1
    have hnd := hs.nodup
    rw [hun, List.nodup_cons] at hnd
    refine ⟨fun p hp => ?_, fun k' hk' => hs.unused k' (by rw [hun]; exact List.mem_cons_of_mem _ hk'), hnd.2, fun k' hk' p hp => ?_⟩
    · rcases List.mem_append.1 hp with hp | hp
      · exact hs.pairs p hp
      · simp only [List.mem_singleton] at hp; subst hp; exact ⟨i, i1, i2, ha⟩
    · rcases List.mem_append.1 hp with hp | hp
      · exact hs.apart k' (by rw [hun]; exact List.mem_cons_of_mem _ hk') p hp
      · simp only [List.mem_singleton] at hp; subst hp
        intro he; simp only at he; subst he; exact hnd.1 hk'
  · rename_i hun
    by_cases hc : s.count < 2^64
    · obtain ⟨k, hk⟩ := seedKey_exists H derive s.seed hc
      obtain ⟨s1, hs1⟩ := addPair_total hd hdist hk (fun p hp => by obtain ⟨j, j1, j2⟩ := hs.pairs p hp; exact ⟨j, by omega, j2⟩)
      simp only [(keyAt_ok hd).2 hk, hs1, bind, Except.bind, pure, Except.pure]
      refine ⟨fun s' k' h => ?_, fun e h => by cases h⟩
      cases h
      obtain ⟨a, ha, -, rfl⟩ := addPair_ok hs1
      refine ⟨fun p hp => ?_, fun k' hk' => ?_, hs.nodup, fun k' hk' => ?_⟩
      · rcases List.mem_append.1 hp with hp | hp
        · obtain ⟨j, j1, j2⟩ := hs.pairs p hp; exact ⟨j, by show j < s.count + 1; omega, j2⟩
        · simp only [List.mem_singleton] at hp; subst hp; exact ⟨s.count, by show s.count < s.count + 1; omega, hk, ha⟩
      · simp [hun] at hk'
      · simp [hun] at hk'
    · have : keyAt H derive s.seed s.count = .error .integerOutOfRange := by simp only [keyAt, keyInput_eq, hc, if_false, bind, Except.bind]
      simp only [this, bind, Except.bind]
      exact ⟨fun s' k' h => by (cases h), fun e h => by cases h; exact ⟨rfl, by omega⟩⟩

theorem steps_sound {H derive : Bytes → Bytes} (hd : Digest32 derive) {seed : Bytes} (hdist : DistinctAddresses H derive seed) {n sc : Int} {s s' : Keys}
    (h : Keys.init H derive seed n sc = .ok s) (hs : KeySteps H derive s s') : s'.seed = seed ∧ Sound H derive s' := by
  induction hs with
  | refl =>
    obtain ⟨h1, h2, h3, h4, -⟩ := C59_new_wallet H derive hd seed n sc s h
    refine ⟨h2, fun p hp => ?_, by simp [h4], by simp [h4], by simp [h4]⟩
    obtain ⟨i, hi⟩ := List.mem_iff_getElem?.1 hp
    exact ⟨i, by have := (List.getElem?_eq_some_iff.1 hi).1; rw [h1.1] at this; omega, h1.2 i p hi⟩
  | step _ h' ih =>
    obtain ⟨i1, i2⟩ := ih
    refine ⟨(keyStep_new hd h').1.trans i1, ?_⟩
    cases h' with
    | new _ k h => exact (new1_sound hd (by rw [i1]; exact hdist) i2).1 _ _ h
    | scan active fuel _ r h =>
      unfold Keys.scan at h
      split at h
      · cases h; exact i2
      · exact (scanLoop_sound hd (by rw [i1]; exact hdist) i2 h).1

/-- **C58.** In every reachable state, scanning and asking for a key never fail because of the keys themselves (no `KeyError`): a scan fails
only with an exception of the explorers, or — like a request for a key — when the 2^64 key numbers are used up. (No two keys of the seed have
the same address.) -/
theorem C58_no_key_error (H derive : Bytes → Bytes) (hd : Digest32 derive) (seed : Bytes) (hdist : DistinctAddresses H derive seed) (n sc : Int) (s s' : Keys)
    (h : Keys.init H derive seed n sc = .ok s) (hs : KeySteps H derive s s') :
    (∀ active fuel s'' e, s'.scan H derive active fuel = some (s'', .error e) →
      (e = .integerOutOfRange ∧ 2^64 < s''.count + s''.scanCount) ∨ ∃ a, active a = .error e) ∧
    ∀ e, s'.new1 H derive = .error e → e = .integerOutOfRange ∧ 2^64 ≤ s'.count := by
  obtain ⟨h1, h2⟩ := steps_sound hd hdist h hs
  refine ⟨fun active fuel s'' e hsc => ?_, (new1_sound hd (by rw [h1]; exact hdist) h2).2⟩
  unfold Keys.scan at hsc
  split at hsc
  · cases hsc
  · exact (scanLoop_sound hd (by rw [h1]; exact hdist) h2 hsc).2 e rfl

/-! ## Skipped keys (C92) -/

/-- **C92.** A key number below the key count that is neither in the wallet nor in the pool is never found again, whatever happens. -/
theorem C92_skipped_forever (H derive : Bytes → Bytes) (hd : Digest32 derive) (s s' : Keys) (hdist : DistinctAddresses H derive s.seed) (i : Nat)
    (hi : i < s.count) (hp : ∀ p ∈ s.pairs, ¬ SeedKey H derive s.seed i p.2) (hu : ∀ k ∈ s.unused, ¬ SeedKey H derive s.seed i k)
    (hs : KeySteps H derive s s') : ¬ HasKey H derive s' i := by
  have key : s'.seed = s.seed ∧ i < s'.count ∧ (∀ p ∈ s'.pairs, ¬ SeedKey H derive s.seed i p.2) ∧ ∀ k ∈ s'.unused, ¬ SeedKey H derive s.seed i k := by
    induction hs with
    | refl => exact ⟨rfl, hi, hp, hu⟩
    | step _ h' ih =>
      obtain ⟨i1, i2, i3, i4⟩ := ih
      obtain ⟨s1, s2, -, ⟨adds, s4, s5⟩, s6⟩ := keyStep_new hd h'
      rw [i1] at s1 s5 s6
      have no : ∀ k j, i < j → SeedKey H derive s.seed j k → ¬ SeedKey H derive s.seed i k := by
        intro k j hj hk hk'
        obtain ⟨a, ha⟩ := seedKey_address hd hk
        have := hdist i j a ⟨k, hk', ha⟩ ⟨k, hk, ha⟩
        omega
      refine ⟨s1, by omega, fun p hp => ?_, fun k hk => ?_⟩
      · rw [s4] at hp
        rcases List.mem_append.1 hp with hp | hp
        · exact i3 p hp
        · rcases (s5 p hp).2 with t | ⟨j, j1, j2⟩
          · exact i4 _ t
          · exact no _ j (by omega) j2
      · rcases s6 k hk with hk | ⟨j, j1, j2⟩
        · exact i4 k hk
        · exact no _ j (by omega) j2
  rintro ⟨k, a, h1, -, h3⟩
  rw [key.1] at h1
  exact key.2.2.1 _ h3 h1

/-- Every key number below the key count is in the wallet or in the pool. -/
def NoneSkipped (H derive : Bytes → Bytes) (s : Keys) : Prop := ∀ i < s.count, HasKey H derive s i ∨ ∃ k ∈ s.unused, SeedKey H derive s.seed i k

theorem hasKey_mono {H derive : Bytes → Bytes} {s s' : Keys} (h1 : s'.seed = s.seed) {adds : List (Str × PublicKey)} (h2 : s'.pairs = s.pairs ++ adds)
    {i : Nat} (h : HasKey H derive s i) : HasKey H derive s' i := by
  obtain ⟨k, a, k1, k2, k3⟩ := h
  exact ⟨k, a, by rw [h1]; exact k1, k2, by rw [h2]; simp [k3]⟩

theorem scanLoop_none {H derive : Bytes → Bytes} (hd : Digest32 derive) {active : Str → Res Bool} : ∀ {fuel : Nat} {s s' : Keys},
    (∀ i j, s.count ≤ i → i < j → Used H derive active s.seed j → Used H derive active s.seed i) → s.unused = [] → NoneSkipped H derive s →
    s.scanLoop H derive active fuel = some (s', .ok ()) → NoneSkipped H derive s' ∧ s'.unused = [] := by
  intro fuel
  induction fuel with
  | zero => intro s s' _ _ _ h; cases h
  | succ fuel ih =>
    intro s s' hg hu hs h
    rcases scanLoop_cases hd h with ⟨e, h⟩ | ⟨h, hno⟩ | ⟨s1, e, ks, used, hk, hp, hi, h⟩ | ⟨s2, last, hr, hc⟩
    · cases h
    · cases h; exact ⟨hs, hu⟩
    · cases h
    · obtain ⟨adds, a1, a2, a3⟩ := hr.adds
      obtain ⟨pool, b1, -, b2, -⟩ := hr.pool
      have hpool : pool = [] := by
        refine List.eq_nil_iff_forall_not_mem.2 fun k hk => ?_
        obtain ⟨j, j1, -, j3⟩ := b2 k hk
        exact j3 (hg _ (s.count + last) (by omega) (by omega) hr.isUsed)
      have hu2 : s2.unused = [] := by rw [b1, hu, hpool]; rfl
      have hs2 : NoneSkipped H derive s2 := by
        intro i hi
        rw [hr.count] at hi
        left
        by_cases hlt : i < s.count
        · rcases hs i hlt with h | ⟨k, hk, -⟩
          · exact hasKey_mono hr.seed a1 h
          · rw [hu] at hk; simp at hk
        · have hus : Used H derive active s.seed (s.count + (i - s.count)) := by
            by_cases he : i = s.count + last
            · rw [show s.count + (i - s.count) = s.count + last by omega]; exact hr.isUsed
            · exact hg _ (s.count + last) (by omega) (by omega) hr.isUsed
          obtain ⟨k, a, k1, k2, k3⟩ := a3 (i - s.count) (by have := hr.lt; omega) hus
          rw [show s.count + (i - s.count) = i by omega] at k1
          exact ⟨k, a, by rw [hr.seed]; exact k1, k2, by rw [a1]; simp [k3]⟩
      rcases hc with ⟨-, h⟩ | ⟨-, h⟩
      · refine ih ?_ hu2 hs2 h.symm
        rw [hr.seed, hr.count]
        exact fun i j hi hj => hg i j (by omega) hj
      · cases h; exact ⟨hs2, hu2⟩

/-- **C92** (what holds: no unused key before a used one). Handing out a key, or a scan that finds the used keys without gaps, skips no key. -/
theorem C92_no_gap_partial (H derive : Bytes → Bytes) (hd : Digest32 derive) (s s' : Keys) (hs : NoneSkipped H derive s) :
    (∀ k, s.new1 H derive = .ok (s', k) → NoneSkipped H derive s') ∧
    ∀ active fuel, (∀ i j, s.count ≤ i → i < j → Used H derive active s.seed j → Used H derive active s.seed i) →
      s.scan H derive active fuel = some (s', .ok ()) → NoneSkipped H derive s' := by
  constructor
  · intro k h
    have hst := keyStep_new hd (.new s' k h)
    obtain ⟨h1, -, -, ⟨adds, h4, -⟩, -⟩ := hst
    unfold Keys.new1 at h
    split at h
    · rename_i k0 rest hun
      simp only [bind, Except.bind] at h
      split at h
      · cases h
      · rename_i s1 hs1
        simp only [pure, Except.pure, Except.ok.injEq, Prod.mk.injEq] at h
        obtain ⟨rfl, rfl⟩ := h
        obtain ⟨a, ha, -, rfl⟩ := addPair_ok hs1
        intro i hi
        rcases hs i hi with h | ⟨k', hk', hsk⟩
        · exact .inl (hasKey_mono h1 h4 h)
        · rw [hun] at hk'
          rcases List.mem_cons.1 hk' with rfl | hk'
          · exact .inl ⟨k', a, hsk, ha, by simp⟩
          · exact .inr ⟨k', hk', hsk⟩
    · rename_i hun
      simp only [bind, Except.bind] at h
      split at h
      · cases h
      · rename_i k1 hk1
        split at h
        · cases h
        · rename_i s1 hs1
          simp only [pure, Except.pure, Except.ok.injEq, Prod.mk.injEq] at h
          obtain ⟨rfl, rfl⟩ := h
          obtain ⟨a, ha, -, rfl⟩ := addPair_ok hs1
          intro i hi
          simp only at hi
          by_cases hlt : i < s.count
          · rcases hs i hlt with h | ⟨k', hk', hsk⟩
            · exact .inl (hasKey_mono h1 h4 h)
            · rw [hun] at hk'; simp at hk'
          · have : i = s.count := by omega
            subst this
            exact .inl ⟨k1, a, (keyAt_ok hd).1 hk1, ha, by simp⟩
  · intro active fuel hg h
    unfold Keys.scan at h
    split at h
    · cases h; exact hs
    · rename_i hc
      have hu : s.unused = [] := List.length_eq_zero_iff.1 (by omega)
      exact (scanLoop_none hd hg hu hs h).1

/-! ## Examples -/

/-- A stand-in for blake2b and for the key derivation: the last 32 bytes. -/
def tailHash (b : Bytes) : Bytes := (List.replicate 32 0 ++ b).drop b.length

theorem tailHash_digest : Digest32 tailHash := fun x => by unfold tailHash; rw [List.length_drop, List.length_append, List.length_replicate]; omega

theorem tailHash_append (x y : Bytes) (hy : y.length = 32) : tailHash (x ++ y) = y := by
  unfold tailHash
  rw [← List.append_assoc, List.drop_append_of_le_length (by simp; omega)]
  rw [List.drop_eq_nil_of_le (by simp [hy])]; rfl

theorem tail_distinct : DistinctAddresses tailHash tailHash [] := by
  rintro i j a ⟨k, ⟨bs, hl, rfl, rfl⟩, u, hu, hs⟩ ⟨k', ⟨cs, hl', rfl, rfl⟩, u', hu', hs'⟩
  have e : ∀ bs : Bytes, bs.length = 8 → tailHash (tailHash ([] ++ bs)) = List.replicate 24 0 ++ bs := by
    intro bs hl
    have h1 : tailHash ([] ++ bs) = List.replicate 24 0 ++ bs := by
      simp only [tailHash, List.nil_append, hl]; rfl
    rw [h1]
    exact tailHash_append [] _ (by simp [hl])
  have adr : ∀ (bs : Bytes) u, bs.length = 8 → (⟨.ed25519, ⟨tailHash (tailHash ([] ++ bs))⟩⟩ : PublicKey).unlockhash tailHash = .ok u →
      u = ⟨1, ⟨List.replicate 24 0 ++ bs⟩⟩ := by
    intro bs u hl h
    rw [e bs hl] at h
    have hl32 : (List.replicate 24 (0 : UInt8) ++ bs).length = 32 := by simp [hl]
    have h1 : (⟨.ed25519, ⟨List.replicate 24 0 ++ bs⟩⟩ : PublicKey).sia.toRes =
        .ok (padSpecifier (KeySpec.ed25519).str ++ (toBytesLE 8 32 ++ (List.replicate 24 0 ++ bs))) := by
      unfold PublicKey.sia
      rw [siaSliceBytes_ok (by show (List.replicate 24 (0 : UInt8) ++ bs).length < _; omega)]; simp only [hl32]; rfl
    have hpad : (padSpecifier (KeySpec.ed25519).str).length = 16 := by decide
    unfold PublicKey.unlockhash at h
    rw [h1] at h
    simp only [bind, Except.bind] at h
    rw [siaSliceBytes_ok (by simp [hpad, hl])] at h
    simp only [Out.toRes, pure, Except.pure, Out.ok] at h
    cases h
    congr 2
    rw [← List.append_assoc, ← List.append_assoc]
    exact tailHash_append _ _ hl32
  have h1 := adr bs u hl hu
  have h2 := adr cs u' hl' hu'
  have := str_inj (H := tailHash) (u := u) (v := u') (by rw [h1]; simp [FullAddress, hl]) (by rw [h2]; simp [FullAddress, hl']) (hs.trans hs'.symm)
  rw [h1, h2] at this
  simp only [UnlockHash.mk.injEq, Hash.mk.injEq, true_and] at this
  rw [List.append_cancel_left this]

/-- A wallet of one key for which only the address of key 2 is known to the explorers. -/
def gapActive : Str → Res Bool := fun a => .ok (decide ((keyAt tailHash tailHash [] 2).toOption.bind (fun k => (addressOf tailHash k).toOption) = some a))

/-- The wallet before and after the scan. -/
def gapStart : Keys := match Keys.init tailHash tailHash [] 1 (-1) with | .ok s => s | .error _ => { seed := [] }
@[inherit_doc gapStart] def gapEnd : Keys := match gapStart.scan tailHash tailHash gapActive 2 with | some (s, .ok ()) => s | _ => gapStart

example : Keys.init tailHash tailHash [] 1 (-1) = .ok gapStart ∧ gapStart.scan tailHash tailHash gapActive 2 = some (gapEnd, .ok ()) ∧ gapEnd.count = 3 ∧
    gapEnd.pairs.length = 2 ∧ gapEnd.unused = [] := by decide +kernel

/-- **C92 is false.** A scan that finds key 2 but not key 1 in use puts neither into the pool: key 1 is skipped, and whatever happens then (even
if it gets used and scans are made) the wallet never has it. -/
theorem C92_skipped_false : ∃ (H derive : Bytes → Bytes) (seed : Bytes) (active : Str → Res Bool) (fuel : Nat) (s s' : Keys), Digest32 H ∧ Digest32 derive ∧
    DistinctAddresses H derive seed ∧ Keys.init H derive seed 1 (-1) = .ok s ∧ s.scan H derive active fuel = some (s', .ok ()) ∧ 1 < s'.count ∧
    s'.unused = [] ∧ ∀ s'', KeySteps H derive s' s'' → ¬ HasKey H derive s'' 1 := by
  refine ⟨tailHash, tailHash, [], gapActive, 2, gapStart, gapEnd, tailHash_digest, tailHash_digest, tail_distinct, by decide +kernel, by decide +kernel,
    by decide +kernel, by decide +kernel, ?_⟩
  intro s'' hs
  have hseed : gapEnd.seed = [] := by decide +kernel
  refine C92_skipped_forever tailHash tailHash tailHash_digest gapEnd s'' (by rw [hseed]; exact tail_distinct) 1 (by decide +kernel) ?_ ?_ hs
  · intro p hp hk
    rw [hseed] at hk
    have := (keyAt_ok tailHash_digest).2 hk
    have hall : gapEnd.pairs.all (fun p => keyAt tailHash tailHash [] 1 != .ok p.2) = true := by decide +kernel
    have := List.all_eq_true.1 hall p hp
    simp_all
  · rw [show gapEnd.unused = [] by decide +kernel]; simp

/-- The scan finds a used key. -/
example : gapEnd.get? ((keyAt tailHash tailHash [] 2).toOption.bind (fun k => (addressOf tailHash k).toOption)).get! =
    (keyAt tailHash tailHash [] 2).toOption := by decide +kernel

end TF.Props
