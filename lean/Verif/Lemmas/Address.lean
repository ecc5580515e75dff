import Verif.Lemmas.SelfDelim
import Verif.Lemmas.Text
import Verif.Lemmas.Merkle
import Verif.Spec.Address
/-! # Lemmas on addresses and conditions -/
namespace TF
open Spec

/-! ### text -/

theorem hexVal_lower {c : Char} {n : Nat} (h : hexVal c = some n) : n < 16 ∧ Nat.digitChar n = c.toLower := by
  have hc : c.toNat < 128 := by
    unfold hexVal at h
    simp only at h
    split at h
    · omega
    · split at h
      · omega
      · split at h
        · omega
        · cases h
  have key : ∀ k : Fin 128, ∀ n, hexVal (Char.ofNat k.val) = some n → n < 16 ∧ Nat.digitChar n = (Char.ofNat k.val).toLower := by
    intro k
    have : ∀ k : Fin 128, (hexVal (Char.ofNat k.val)).all (fun n => decide (n < 16 ∧ Nat.digitChar n = (Char.ofNat k.val).toLower)) = true := by
      decide +kernel
    have hk := this k
    intro n hn
    rw [hn] at hk
    simpa using hk
  have e : Char.ofNat c.toNat = c := by simp
  have := key ⟨c.toNat, hc⟩ n (by simpa [e] using h)
  simpa [e] using this

/-- Decoding hex text: it has at least two characters per byte; if it has exactly two, the bytes print as the lower-case text. -/
theorem fromHex_spec (s : Str) : ∀ b, fromHex s = some b → 2 * b.length ≤ s.length ∧ (2 * b.length = s.length → toHex b = lower s) := by
  fun_induction fromHex s with
  | case1 => intro b h; cases h; simp [toHex, lower]
  | case2 c hc => intro b h; cases h; simp
  | case3 c hc => intro b h; cases h
  | case4 c d rest hc ih =>
    intro b h
    have := ih b h
    simp only [List.length_cons] at this ⊢
    exact ⟨by omega, fun h => by omega⟩
  | case5 c d rest hc ih =>
    intro b h
    simp only [Option.bind_eq_bind, Option.bind_eq_some_iff] at h
    obtain ⟨hi, h1, lo, h2, t, h3, h4⟩ := h
    simp only [pure, Option.some.injEq] at h4
    subst h4
    obtain ⟨l1, l2⟩ := ih t h3
    obtain ⟨a1, a2⟩ := hexVal_lower h1
    obtain ⟨b1, b2⟩ := hexVal_lower h2
    simp only [List.length_cons]
    refine ⟨by omega, fun h => ?_⟩
    have e := l2 (by omega)
    have hn : (UInt8.ofNat (hi * 16 + lo)).toNat = hi * 16 + lo := by simp; omega
    have d1 : (hi * 16 + lo) / 16 = hi := by omega
    have d2 : (hi * 16 + lo) % 16 = lo := by omega
    simp only [toHex, List.flatMap_cons, hn, d1, d2, a2, b2, List.cons_append, List.nil_append, lower, List.map_cons]
    have e' := e
    unfold toHex lower at e'
    rw [e']

theorem usDigits_spec (s : Str) : ∀ prev r, usDigits prev s = some r → r.length ≤ s.length ∧ (∀ c ∈ r, isDig c = true) := by
  induction s with
  | nil =>
    intro prev r h; simp only [usDigits] at h
    split at h
    · cases h; simp
    · cases h
  | cons c s ih =>
    intro prev r h
    simp only [usDigits] at h
    split at h
    · rename_i hd
      cases h1 : usDigits true s with
      | none => simp [h1] at h
      | some r' =>
        simp [h1] at h
        subst h
        obtain ⟨a, b⟩ := ih _ _ h1
        refine ⟨by simp; omega, fun c hc => ?_⟩
        simp only [List.mem_cons] at hc
        rcases hc with rfl | hc
        · exact hd
        · exact b c hc
    · split at h
      · obtain ⟨a, b⟩ := ih _ _ h
        exact ⟨by simp; omega, b⟩
      · cases h

theorem splitSign_length (s : Str) : (splitSign s).2.length ≤ s.length := by
  unfold splitSign; split <;> simp

/-- Two characters denote a number below 256. -/
theorem pyInt_two_chars {a : Str} (ha : a.length ≤ 2) {t : Int} (ht : pyInt a = some t) : t < 256 := by
  unfold pyInt at ht
  have hsl : (intText a).length ≤ 2 := by
    have : (intText a).length ≤ a.length := by
      unfold intText rstrip lstrip
      rw [List.length_reverse]
      refine Nat.le_trans (List.Sublist.length_le (List.dropWhile_sublist _)) ?_
      rw [List.length_reverse]
      refine Nat.le_trans (List.Sublist.length_le (List.dropWhile_sublist _)) ?_
      simp
    omega
  have hss := splitSign_length (intText a)
  simp only at ht
  cases h1 : usDigits false (splitSign (intText a)).2 with
  | none => simp [h1] at ht
  | some r =>
    obtain ⟨hr, hd⟩ := usDigits_spec _ _ _ h1
    have hrl : r.length ≤ 2 := by omega
    have dv : digVal r < 256 := by
      have dn : ∀ c : Char, isDig c = true → c.toNat - 48 ≤ 9 := by
        intro c hc; simp only [isDig, decide_eq_true_eq] at hc; omega
      match r, hrl, hd with
      | [], _, _ => decide
      | [a], _, hd =>
        have := dn a (hd a (by simp))
        simp [digVal, Nat.ofDigitChars, List.foldl]; omega
      | [a, b], _, hd =>
        have h1 := dn a (hd a (by simp))
        have h2 := dn b (hd b (by simp))
        simp [digVal, Nat.ofDigitChars, List.foldl]; omega
    rw [h1] at ht
    simp only [Option.map_some, Option.some.injEq] at ht
    split at ht <;> omega

theorem hash_new_str {s : Str} {h : Hash} (hh : Hash.new (.str s) = .ok h) :
    fromHex s = some h.value ∧ (h.value.length = 0 ∨ h.value.length = 32) := by
  unfold Hash.new BinData.new at hh
  simp only [bind, Except.bind] at hh
  unfold BinData.set BVal.norm StrEnc.fromStr at hh
  cases hs : fromHex s with
  | none => simp [hs, bind, Except.bind] at hh
  | some b =>
    simp only [hs, bind, Except.bind] at hh
    simp at hh
    by_cases hc : b ≠ [] ∧ b.length ≠ 32
    · simp [hc, throw, throwThe, MonadExceptOf.throw] at hh
    · simp only [not_and, Decidable.not_not] at hc
      split at hh
      · cases hh
      · rename_i v hv
        split at hv
        · cases hv
        · cases hv
          cases hh
          refine ⟨rfl, ?_⟩
          by_cases hb : b = []
          · left; simp [hb]
          · right; exact hc hb

theorem hash_new_hex {b : Bytes} (hb : b.length = 32) : Hash.new (.str (toHex b)) = .ok ⟨b⟩ := by
  simp [Hash.new, BinData.new, BinData.set, BVal.norm, StrEnc.fromStr, fromHex_toHex, bind, Except.bind, hb, pure, Except.pure]

theorem hash_str_full {h : Hash} (hl : h.value.length = 32) : h.str = toHex h.value := by
  have hne : toHex h.value ≠ [] := by
    intro h0; have := congrArg List.length h0; rw [toHex_length] at this; simp at this; omega
  simp [Hash.str, hne]

theorem hash_str_length {h : Hash} (hl : h.value.length = 0 ∨ h.value.length = 32) : h.str.length = 64 := by
  rcases hl with hl | hl
  · have : h.value = [] := List.length_eq_zero_iff.1 hl
    simp [Hash.str, this, toHex]
  · rw [hash_str_full hl, toHex_length, hl]

theorem pyInt_toHex_type {t : UInt8} (h : t ∈ ([0, 1, 2, 3] : List UInt8)) : pyInt (toHex [t]) = some (t.toNat : Int) := by
  simp only [List.mem_cons, List.not_mem_nil, or_false] at h
  rcases h with rfl | rfl | rfl | rfl <;> decide

/-- Printing and parsing an address. -/
theorem fromStr_str {H : Bytes → Bytes} (hH : Digest32 H) {u : UnlockHash} (hu : CanonicalAddress u) :
    UnlockHash.fromStr H (u.str H) = .ok u := by
  obtain ⟨t, h⟩ := u
  have hlen : h.value.length = 32 := by
    rcases hu with ⟨-, h1⟩ | ⟨-, h1⟩
    · exact h1
    · simp only at h1; rw [h1]; simp
  have hmem : t ∈ ([0, 1, 2, 3] : List UInt8) := by
    rcases hu with ⟨h1, -⟩ | ⟨h1, -⟩
    · simp only [List.mem_cons, List.not_mem_nil, or_false] at h1 ⊢; exact .inr h1
    · simp only at h1; simp [h1]
  generalize hs : UnlockHash.str H ⟨t, h⟩ = s
  have hck : (toHex (((⟨t, h⟩ : UnlockHash).checksum H).take 6)).length = 12 := by
    rw [toHex_length]
    unfold UnlockHash.checksum
    split
    · simp
    · rw [List.length_take, hH]; rfl
  have hs' : s = toHex [t] ++ (toHex h.value ++ toHex (((⟨t, h⟩ : UnlockHash).checksum H).take 6)) := by
    rw [← hs]; simp [UnlockHash.str, hash_str_full hlen]
  have l1 : (toHex [t]).length = 2 := by rw [toHex_length]; rfl
  have l2 : (toHex h.value).length = 64 := by rw [toHex_length, hlen]
  have hslen : s.length = 78 := by rw [hs']; simp only [List.length_append, l1, l2, hck]
  have ht : s.take 2 = toHex [t] := by rw [hs', List.take_left' l1]
  have hd : (s.drop 2).take 64 = toHex h.value := by rw [hs', List.drop_left' l1, List.take_left' l2]
  have hc : s.drop (s.length - 12) = toHex (((⟨t, h⟩ : UnlockHash).checksum H).take 6) := by
    rw [hslen, hs', ← List.append_assoc, List.drop_left']
    simp only [List.length_append, l1, l2]
  unfold UnlockHash.fromStr
  rw [if_neg (by omega), ht, pyInt_toHex_type hmem, hd]
  simp only [hash_new_hex hlen]
  rw [if_neg (by omega), hc]
  have e : UInt8.ofNat ((t.toNat : Int)).toNat = t := by simp
  by_cases h0 : t = 0
  · subst h0
    have hz : h.value = List.replicate 32 0 := by
      rcases hu with ⟨h1, -⟩ | ⟨-, h1⟩
      · simp at h1
      · exact h1
    obtain ⟨hv⟩ := h
    simp only at hz
    subst hz
    simp
  · have : ¬ ((t.toNat : Int) = 0) := by
      intro h1; apply h0
      have : t.toNat = 0 := by omega
      rw [← UInt8.toNat_inj]; simpa using this
    rw [if_neg this, e]
    simp

theorem str_inj {H : Bytes → Bytes} {u v : UnlockHash} (hu : FullAddress u) (hv : FullAddress v)
    (h : u.str H = v.str H) : u = v := by
  unfold UnlockHash.str at h
  rw [hash_str_full hu, hash_str_full hv, List.append_assoc, List.append_assoc] at h
  obtain ⟨h1, h2⟩ := List.append_inj h (by rw [toHex_length, toHex_length]; rfl)
  unfold FullAddress at hu hv
  obtain ⟨h3, -⟩ := List.append_inj h2 (by rw [toHex_length, toHex_length, hu, hv])
  have t := toHex_inj h1
  have hh := toHex_inj h3
  obtain ⟨t1, ⟨x⟩⟩ := u
  obtain ⟨t2, ⟨y⟩⟩ := v
  simp at t hh
  simp [t, hh]

/-! ### ordering of owners -/

theorem strLe_total (a b : Str) : (strLe a b || strLe b a) = true := by
  induction a generalizing b with
  | nil => cases b <;> simp [strLe]
  | cons x a ih =>
    cases b with
    | nil => simp [strLe]
    | cons y b =>
      simp only [strLe]
      by_cases h1 : x.toNat < y.toNat
      · simp [h1]
      · by_cases h2 : y.toNat < x.toNat
        · simp [h2]
        · simpa [h1, h2] using ih b

theorem strLe_trans (a b c : Str) (h1 : strLe a b = true) (h2 : strLe b c = true) : strLe a c = true := by
  induction a generalizing b c with
  | nil => simp [strLe]
  | cons x a ih =>
    cases b with
    | nil => simp [strLe] at h1
    | cons y b =>
      cases c with
      | nil => simp [strLe] at h2
      | cons z c =>
        simp only [strLe] at h1 h2 ⊢
        by_cases a1 : x.toNat < y.toNat
        · by_cases a2 : y.toNat < z.toNat
          · rw [if_pos (by omega)]
          · rw [if_neg a2] at h2
            by_cases a3 : z.toNat < y.toNat
            · simp [a3] at h2
            · rw [if_pos (by omega)]
        · rw [if_neg a1] at h1
          by_cases b1 : y.toNat < x.toNat
          · simp [b1] at h1
          · rw [if_neg b1] at h1
            by_cases a2 : y.toNat < z.toNat
            · rw [if_pos (by omega)]
            · rw [if_neg a2] at h2
              by_cases a3 : z.toNat < y.toNat
              · simp [a3] at h2
              · rw [if_neg a3] at h2
                rw [if_neg (by omega), if_neg (by omega)]
                exact ih _ _ h1 h2

theorem strLe_antisymm (a b : Str) (h1 : strLe a b = true) (h2 : strLe b a = true) : a = b := by
  induction a generalizing b with
  | nil => cases b with
    | nil => rfl
    | cons => simp [strLe] at h2
  | cons x a ih =>
    cases b with
    | nil => simp [strLe] at h1
    | cons y b =>
      simp only [strLe] at h1 h2
      by_cases a1 : x.toNat < y.toNat
      · rw [if_neg (by omega), if_pos a1] at h2; cases h2
      · by_cases a2 : y.toNat < x.toNat
        · rw [if_neg a1, if_pos a2] at h1; cases h1
        · rw [if_neg a1, if_neg a2] at h1
          rw [if_neg a2, if_neg a1] at h2
          have : x = y := Char.toNat_inj.1 (by omega)
          rw [this, ih b h1 h2]

theorem insertBy_perm {α : Type} (le : α → α → Bool) (x : α) (l : List α) : (insertBy le x l).Perm (x :: l) := by
  induction l with
  | nil => exact .refl _
  | cons y ys ih =>
    unfold insertBy
    split
    · exact .refl _
    · exact (ih.cons y).trans (.swap x y ys)

theorem stableSort_perm {α : Type} (le : α → α → Bool) (l : List α) : (stableSort le l).Perm l := by
  unfold stableSort
  induction l with
  | nil => exact .refl _
  | cons y ys ih => exact (insertBy_perm le y _).trans (ih.cons y)

theorem insertBy_sorted {α : Type} {le : α → α → Bool} (tr : ∀ a b c, le a b = true → le b c = true → le a c = true)
    (tot : ∀ a b, (le a b || le b a) = true) (x : α) {l : List α} (h : l.Pairwise fun a b => le a b = true) :
    (insertBy le x l).Pairwise fun a b => le a b = true := by
  induction l with
  | nil => simp [insertBy]
  | cons y ys ih =>
    rw [List.pairwise_cons] at h
    unfold insertBy
    split
    · rename_i hxy
      refine List.Pairwise.cons ?_ (List.Pairwise.cons h.1 h.2)
      intro z hz
      rcases List.mem_cons.1 hz with rfl | hz
      · exact hxy
      · exact tr _ _ _ hxy (h.1 z hz)
    · rename_i hxy
      refine List.Pairwise.cons ?_ (ih h.2)
      intro z hz
      rcases List.mem_cons.1 ((insertBy_perm le x ys).subset hz) with rfl | hz
      · have := tot z y
        simpa [hxy] using this
      · exact h.1 z hz

theorem stableSort_sorted {α : Type} {le : α → α → Bool} (tr : ∀ a b c, le a b = true → le b c = true → le a c = true)
    (tot : ∀ a b, (le a b || le b a) = true) (l : List α) : (stableSort le l).Pairwise fun a b => le a b = true := by
  unfold stableSort
  induction l with
  | nil => simp
  | cons y ys ih => exact insertBy_sorted tr tot y ih

theorem sortOwners_sorted (H : Bytes → Bytes) (l : List UnlockHash) :
    (sortOwners H l).Pairwise (fun a b => strLe (a.str H) (b.str H) = true) :=
  stableSort_sorted (le := fun a b => strLe (a.str H) (b.str H)) (fun _ _ _ => strLe_trans _ _ _) (fun _ _ => strLe_total _ _) l

theorem sortOwners_perm (H : Bytes → Bytes) (l : List UnlockHash) : (sortOwners H l).Perm l := stableSort_perm _ _

theorem sortOwners_unique {H : Bytes → Bytes} {l s : List UnlockHash} (hl : ∀ u ∈ l, FullAddress u) (hp : s.Perm l)
    (hs : s.Pairwise (fun a b => strLe (a.str H) (b.str H) = true)) : sortOwners H l = s := by
  refine List.Perm.eq_of_pairwise ?_ (sortOwners_sorted H l) hs ((sortOwners_perm H l).trans hp.symm)
  intro a b ha hb h1 h2
  exact str_inj (hl a ((sortOwners_perm H l).subset ha)) (hl b (hp.subset hb)) (strLe_antisymm _ _ h1 h2)

/-! ### encodings -/

theorem uh_sia (u : UnlockHash) : u.sia = .ok (u.type :: u.hash.value) := by
  have : toBytesLE 1 u.type.toNat = [u.type] := by
    have := u.type.toNat_lt
    simp [toBytesLE]
  unfold UnlockHash.sia siaAddByte
  have h := u.type.toNat_lt
  simp only
  rw [if_neg (by omega)]
  simp [Out.andThen, Out.ok, Hash.enc, this]

theorem uh_riv (u : UnlockHash) : u.riv = .ok (u.type :: u.hash.value) := by
  have : toBytesLE 1 u.type.toNat = [u.type] := by
    have := u.type.toNat_lt
    simp [toBytesLE]
  have h := u.type.toNat_lt
  unfold UnlockHash.riv rivInt8
  rw [rivInt_ok (by omega) (by omega)]
  simp [Out.andThen, Out.ok, Hash.enc, this]

theorem sd_uh : SD FullAddress UnlockHash.sia ∧ SD FullAddress UnlockHash.riv := by
  have : ∀ enc : UnlockHash → Out, (∀ u, enc u = .ok (u.type :: u.hash.value)) → SD FullAddress enc := by
    intro enc he
    refine SD.via (fun u : UnlockHash => u.type :: u.hash.value) (sd_fixed 33) ?_ ?_ (fun u _ => he u)
    · rintro ⟨t, ⟨x⟩⟩ ⟨t', ⟨y⟩⟩ _ _ h; simpa using h
    · intro u hu; simp [hu, FullAddress] at hu ⊢; exact hu
  exact ⟨this _ uh_sia, this _ uh_riv⟩

theorem sd_secret : SD (fun o : Option Bytes => ∃ b, o = some b ∧ b.length = 32) (fun o => (hashedSecretData o).sia) ∧
    SD (fun o : Option Bytes => ∃ b, o = some b ∧ b.length = 32) (fun o => (hashedSecretData o).riv) := by
  have : ∀ enc : Option Bytes → Out, (∀ b, enc (some b) = .ok b) → SD (fun o : Option Bytes => ∃ b, o = some b ∧ b.length = 32) enc := by
    intro enc he
    refine SD.via (fun o : Option Bytes => o.getD []) (sd_fixed 32) ?_ ?_ ?_
    · rintro a b ⟨x, rfl, hx⟩ ⟨y, rfl, hy⟩ h; simpa using h
    · rintro a ⟨x, rfl, hx⟩; simpa using hx
    · rintro a ⟨x, rfl, hx⟩; simpa using he x
  exact ⟨this _ (fun b => rfl), this _ (fun b => rfl)⟩

theorem andThen_ok_nil (a : Out) : a.andThen (.ok []) = a := by
  obtain ⟨b, e⟩ := a; cases e <;> simp [Out.andThen, Out.ok]

/-- The four fields of a swap condition, encoded in sequence. -/
theorem sd_swap {uhe : UnlockHash → Out} {se : Option Bytes → Out} {ie : Int → Out}
    (h1 : SD FullAddress uhe) (h2 : SD (fun o : Option Bytes => ∃ b, o = some b ∧ b.length = 32) se) (h3 : SD (fun _ => True) ie) :
    SD (fun p : UnlockHash × UnlockHash × Option Bytes × Int => FullAddress p.1 ∧ FullAddress p.2.1 ∧ (∃ b, p.2.2.1 = some b ∧ b.length = 32) ∧ True)
      (fun p => (uhe p.1).andThen ((uhe p.2.1).andThen ((se p.2.2.1).andThen (ie p.2.2.2)))) :=
  SD.prod h1 (SD.prod h1 (SD.prod h2 h3))

theorem siaData_inj (c c' : Condition) (x : Bytes) (hc : FullCondition c) (hc' : FullCondition c') (ht : c.type = c'.type)
    (h : c.siaData.toRes = .ok x) (h' : c'.siaData.toRes = .ok x) : c = c' := by
  induction c generalizing c' x with
  | nil => cases c' <;> simp [Condition.type] at ht; rfl
  | unlockHash u =>
    cases c' <;> simp [Condition.type] at ht
    rw [sd_uh.1.inj hc hc' h h']
  | atomicSwap s r hs t =>
    cases c' <;> simp [Condition.type] at ht
    rename_i s' r' hs' t'
    have := sd_swap sd_uh.1 sd_secret.1 sd_siaInt
    have e : ∀ s r hs t, (Condition.atomicSwap s r hs t).siaData =
        (UnlockHash.sia s).andThen ((UnlockHash.sia r).andThen (((hashedSecretData hs).sia).andThen (siaInt t))) := by
      intro s r hs t
      simp only [Condition.siaData, siaAddSeq, siaAdd, UnlockHash.val, andThen_ok_nil]
    rw [e] at h h'
    have := this.inj (a := (s, r, hs, t)) (b := (s', r', hs', t')) ⟨hc.1, hc.2.1, hc.2.2, trivial⟩
      ⟨hc'.1, hc'.2.1, hc'.2.2, trivial⟩ h h'
    simp only [Prod.mk.injEq] at this
    obtain ⟨rfl, rfl, rfl, rfl⟩ := this
    rfl
  | lockTime l c ih =>
    cases c' <;> simp [Condition.type] at ht
    rename_i l' c'
    simp only [Condition.siaData] at h h'
    obtain ⟨a, b, h1, h2, rfl⟩ := andThen_ok.1 h
    obtain ⟨a', b', h1', h2', e⟩ := andThen_ok.1 h'
    have := SD.prod sd_siaInt (sd_fixed 1)
    have := this (l, [UInt8.ofNat c.type]) (l', [UInt8.ofNat c'.type]) a a' b b' ⟨trivial, rfl⟩ ⟨trivial, rfl⟩ h1 h1' e
    obtain ⟨e1, rfl⟩ := this
    simp only [Prod.mk.injEq, List.cons.injEq, and_true] at e1
    obtain ⟨rfl, e2⟩ := e1
    have ht' : c.type = c'.type := by
      have k : ∀ c : Condition, c.type < 256 := by intro c; cases c <;> simp [Condition.type]
      have := congrArg UInt8.toNat e2
      have k1 := k c; have k2 := k c'
      simp at this
      omega
    rw [ih c' b hc hc' ht' h2 h2']
  | multiSig owners n =>
    cases c' <;> simp [Condition.type] at ht
    rename_i owners' n'
    have hl := sd_siaList (P := FullAddress) UnlockHash.val (by simpa [siaAdd, UnlockHash.val] using sd_uh.1)
    have := SD.prod sd_siaInt hl
    have := this.inj (a := (n, owners)) (b := (n', owners')) ⟨trivial, hc⟩ ⟨trivial, hc'⟩ h h'
    simp only [Prod.mk.injEq] at this
    obtain ⟨rfl, rfl⟩ := this
    rfl

theorem rivData_inj (c c' : Condition) (x : Bytes) (hc : FullCondition c) (hc' : FullCondition c') (ht : c.type = c'.type)
    (h : c.rivData.toRes = .ok x) (h' : c'.rivData.toRes = .ok x) : c = c' := by
  induction c generalizing c' x with
  | nil => cases c' <;> simp [Condition.type] at ht; rfl
  | unlockHash u =>
    cases c' <;> simp [Condition.type] at ht
    rw [sd_uh.2.inj hc hc' h h']
  | atomicSwap s r hs t =>
    cases c' <;> simp [Condition.type] at ht
    rename_i s' r' hs' t'
    have := sd_swap sd_uh.2 sd_secret.2 (sd_rivInt 8)
    have e : ∀ s r hs t, (Condition.atomicSwap s r hs t).rivData =
        (UnlockHash.riv s).andThen ((UnlockHash.riv r).andThen (((hashedSecretData hs).riv).andThen (rivInt 8 t))) := by
      intro s r hs t
      simp only [Condition.rivData, atomicSwapRiv, rivAddSeq, rivAdd, UnlockHash.val, rivInt64, andThen_ok_nil]
    rw [e] at h h'
    have := this.inj (a := (s, r, hs, t)) (b := (s', r', hs', t')) ⟨hc.1, hc.2.1, hc.2.2, trivial⟩
      ⟨hc'.1, hc'.2.1, hc'.2.2, trivial⟩ h h'
    simp only [Prod.mk.injEq] at this
    obtain ⟨rfl, rfl, rfl, rfl⟩ := this
    rfl
  | lockTime l c ih =>
    cases c' <;> simp [Condition.type] at ht
    rename_i l' c'
    simp only [Condition.rivData] at h h'
    obtain ⟨a, b, h1, h2, rfl⟩ := andThen_ok.1 h
    obtain ⟨a', b', h1', h2', e⟩ := andThen_ok.1 h'
    have := SD.prod (sd_rivInt 8) (sd_rivInt 1)
    have := this (l, (c.type : Int)) (l', (c'.type : Int)) a a' b b' ⟨trivial, trivial⟩ ⟨trivial, trivial⟩ h1 h1' e
    obtain ⟨e1, rfl⟩ := this
    simp only [Prod.mk.injEq] at e1
    obtain ⟨rfl, e2⟩ := e1
    rw [ih c' b hc hc' (by omega) h2 h2']
  | multiSig owners n =>
    cases c' <;> simp [Condition.type] at ht
    rename_i owners' n'
    have hl := sd_rivList (P := FullAddress) UnlockHash.val (by simpa [rivAdd, UnlockHash.val] using sd_uh.2)
    have := SD.prod (sd_rivInt 8) hl
    have := this.inj (a := (n, owners)) (b := (n', owners')) ⟨trivial, hc⟩ ⟨trivial, hc'⟩ h h'
    simp only [Prod.mk.injEq] at this
    obtain ⟨rfl, rfl⟩ := this
    rfl

theorem condType_lt (c : Condition) : c.type < 256 := by cases c <;> simp [Condition.type]

theorem sd_condition : SD FullCondition Condition.sia ∧ SD FullCondition Condition.riv := by
  constructor
  · have h := SD.dep (P := fun b : Bytes => b.length = 1) (f := fun b => Out.ok b) (sd_fixed 1)
      (Q := fun b c => FullCondition c ∧ b = [UInt8.ofNat c.type]) (g := fun _ c => c.siaData.nested siaSliceBytes) (fun b _ =>
        SD.nested sd_siaSliceBytes (fun a a' x ha ha' h h' => by
          refine siaData_inj a a' x ha.1 ha'.1 ?_ h h'
          have := ha.2.symm.trans ha'.2
          simp only [List.cons.injEq, and_true] at this
          have := congrArg UInt8.toNat this
          have k1 := condType_lt a; have k2 := condType_lt a'
          simp at this
          omega))
    refine SD.via (fun c : Condition => ([UInt8.ofNat c.type], c)) h ?_ (fun c hc => ⟨rfl, hc, rfl⟩) (fun c _ => rfl)
    intro a b _ _ e; exact (Prod.mk.inj e).2
  · have h := SD.dep (P := fun _ : Int => True) (f := fun t => rivInt 1 t) (sd_rivInt 1)
      (Q := fun t c => FullCondition c ∧ t = (c.type : Int)) (g := fun _ c => c.rivData.nested rivSliceBytes) (fun b _ =>
        SD.nested sd_rivSliceBytes (fun a a' x ha ha' h h' => by
          refine rivData_inj a a' x ha.1 ha'.1 ?_ h h'
          have := ha.2.symm.trans ha'.2
          omega))
    refine SD.via (fun c : Condition => ((c.type : Int), c)) h ?_ (fun c hc => ⟨trivial, hc, rfl⟩) (fun c _ => rfl)
    intro a b _ _ e; exact (Prod.mk.inj e).2

/-! ### JSON -/

theorem mapM_ok {α β : Type} (f : β → Res α) (g : α → β) (l : List α) (h : ∀ a ∈ l, f (g a) = .ok a) :
    (l.map g).mapM f = .ok l := by
  induction l with
  | nil => rfl
  | cons a l ih =>
    rw [List.map_cons, List.mapM_cons, h a (by simp), ih (fun b hb => h b (by simp [hb]))]
    rfl

end TF
