import Verif.Spec.Words
import Verif.Model.Words
import Verif.Props.Keys
import Verif.Props.Duration
import Verif.Model.Hash
import Verif.Lemmas.Text
/-! # C123: the words of a wallet -/
namespace TF.Props
open TF TF.Spec

/-! ## Binary digits -/

theorem bitsVal_append (a b : List Bool) : bitsVal (a ++ b) = bitsVal a * 2 ^ b.length + bitsVal b := by
  have key : ∀ (b : List Bool) (v : Nat), b.foldl (fun v b => 2 * v + b.toNat) v = v * 2 ^ b.length + bitsVal b := by
    intro b
    induction b with
    | nil => intro v; simp [bitsVal]
    | cons x b ih =>
      intro v
      have h2 : bitsVal (x :: b) = x.toNat * 2 ^ b.length + bitsVal b := by
        show b.foldl _ (2 * 0 + x.toNat) = _
        rw [ih]; simp
      rw [List.foldl_cons, ih, h2, List.length_cons, Nat.pow_succ, Nat.add_mul, Nat.add_assoc]
      congr 1
      rw [Nat.mul_comm 2 v, Nat.mul_assoc, Nat.mul_comm 2]
  unfold bitsVal
  rw [List.foldl_append, key]
  rfl

theorem bitsVal_lt (l : List Bool) : bitsVal l < 2 ^ l.length := by
  induction l with
  | nil => simp [bitsVal]
  | cons x l ih =>
    have := bitsVal_append [x] l
    rw [show [x] ++ l = x :: l from rfl] at this
    rw [this, List.length_cons, Nat.pow_succ]
    have hx : bitsVal [x] ≤ 1 := by cases x <;> decide
    have := Nat.mul_le_mul_right (2 ^ l.length) hx
    omega

theorem bits_inj : ∀ {a b : List Bool}, a.length = b.length → bitsVal a = bitsVal b → a = b
  | [], [], _, _ => rfl
  | [], _ :: _, h, _ => by simp at h
  | _ :: _, [], h, _ => by simp at h
  | x :: a, y :: b, hl, h => by
    have hl' : a.length = b.length := by simpa using hl
    have h1 := bitsVal_append [x] a
    have h2 := bitsVal_append [y] b
    rw [show [x] ++ a = x :: a from rfl] at h1
    rw [show [y] ++ b = y :: b from rfl] at h2
    rw [h1, h2, hl'] at h
    have ha := bitsVal_lt a
    have hb := bitsVal_lt b
    rw [hl'] at ha
    have hxy : bitsVal [x] = bitsVal [y] ∧ bitsVal a = bitsVal b := by
      have e1 : bitsVal [true] = 1 := rfl
      have e0 : bitsVal [false] = 0 := rfl
      clear h1 h2 hl
      cases x <;> cases y <;> simp only [e1, e0, Nat.zero_mul, Nat.one_mul, Nat.zero_add] at h ⊢ <;> first | omega | exact ⟨trivial, by omega⟩
    have : x = y := by revert hxy; cases x <;> cases y <;> simp [bitsVal]
    rw [this, bits_inj hl' hxy.2]

theorem toBits_length (n k : Nat) : (toBits n k).length = n := by simp [toBits]

theorem toBits_val (n k : Nat) : bitsVal (toBits n k) = k % 2 ^ n := by
  induction n generalizing k with
  | zero => simp [toBits, bitsVal, Nat.mod_one]
  | succ n ih =>
    have h : toBits (n + 1) k = toBits n (k / 2) ++ [k.testBit 0] := by
      unfold toBits
      rw [List.range_succ, List.map_append]
      congr 1
      · apply List.map_congr_left
        intro i hi
        have := List.mem_range.1 hi
        rw [show n + 1 - 1 - i = (n - 1 - i) + 1 by omega, Nat.testBit_succ]
      · simp
    rw [h, bitsVal_append, ih]
    have h1 : bitsVal [k.testBit 0] = k % 2 := by
      rw [Nat.testBit_zero]
      rcases Nat.mod_two_eq_zero_or_one k with e | e <;> simp [bitsVal, e]
    rw [h1, List.length_singleton, Nat.pow_succ 2 n, Nat.mul_comm (2 ^ n) 2, Nat.mod_mul, Nat.pow_one]
    omega

theorem take_val {l : List Bool} {k : Nat} (h : k ≤ l.length) : bitsVal (l.take k) = bitsVal l / 2 ^ (l.length - k) := by
  have h1 := bitsVal_append (l.take k) (l.drop k)
  rw [List.take_append_drop] at h1
  have h2 := bitsVal_lt (l.drop k)
  rw [List.length_drop] at h1 h2
  rw [h1, Nat.mul_comm, Nat.mul_add_div (Nat.two_pow_pos _), Nat.div_eq_of_lt h2, Nat.add_zero]

theorem drop_val {l : List Bool} {k : Nat} : bitsVal (l.drop k) = bitsVal l % 2 ^ (l.length - k) := by
  have h1 := bitsVal_append (l.take k) (l.drop k)
  rw [List.take_append_drop] at h1
  have h2 := bitsVal_lt (l.drop k)
  rw [List.length_drop] at h1 h2
  rw [h1, Nat.mul_comm, Nat.mul_add_mod, Nat.mod_eq_of_lt h2]

theorem ofDigits_append (base : Nat) (a b : List Nat) : ofDigits base (a ++ b) = ofDigits base a * base ^ b.length + ofDigits base b := by
  have key : ∀ (b : List Nat) (v : Nat), b.foldl (fun v d => base * v + d) v = v * base ^ b.length + ofDigits base b := by
    intro b
    induction b with
    | nil => intro v; simp [ofDigits]
    | cons x b ih =>
      intro v
      have h2 : ofDigits base (x :: b) = x * base ^ b.length + ofDigits base b := by
        show b.foldl _ (base * 0 + x) = _
        rw [ih]; simp
      rw [List.foldl_cons, ih, h2, List.length_cons, Nat.pow_succ, Nat.add_mul, Nat.add_assoc]
      congr 1
      rw [Nat.mul_comm base v, Nat.mul_assoc, Nat.mul_comm base]
  unfold ofDigits
  rw [List.foldl_append, key]
  rfl

theorem ofDigits_cons (base x : Nat) (l : List Nat) : ofDigits base (x :: l) = x * base ^ l.length + ofDigits base l := by
  have := ofDigits_append base [x] l
  simpa [ofDigits] using this

theorem ofDigits_lt {base : Nat} {l : List Nat} (h : ∀ d ∈ l, d < base) : ofDigits base l < base ^ l.length := by
  induction l with
  | nil => simp [ofDigits]
  | cons x l ih =>
    rw [ofDigits_cons, List.length_cons, Nat.pow_succ]
    have h1 := ih fun d hd => h d (List.mem_cons_of_mem _ hd)
    have h2 := h x (by simp)
    calc x * base ^ l.length + ofDigits base l < x * base ^ l.length + base ^ l.length := by omega
      _ = (x + 1) * base ^ l.length := by rw [Nat.add_mul, Nat.one_mul]
      _ ≤ base * base ^ l.length := Nat.mul_le_mul_right _ h2
      _ = base ^ l.length * base := Nat.mul_comm _ _

theorem ofDigits_inj {base : Nat} : ∀ {a b : List Nat}, a.length = b.length → (∀ d ∈ a, d < base) → (∀ d ∈ b, d < base) →
    ofDigits base a = ofDigits base b → a = b
  | [], [], _, _, _, _ => rfl
  | [], _ :: _, h, _, _, _ => by simp at h
  | _ :: _, [], h, _, _, _ => by simp at h
  | x :: a, y :: b, hl, ha, hb, h => by
    have hl' : a.length = b.length := by simpa using hl
    rw [ofDigits_cons, ofDigits_cons, hl'] at h
    have h1 := ofDigits_lt fun d hd => ha d (List.mem_cons_of_mem _ hd)
    have h2 := ofDigits_lt fun d hd => hb d (List.mem_cons_of_mem _ hd)
    rw [hl'] at h1
    have hp : 0 < base ^ b.length := by omega
    have hx : x = y := by
      have e1 : (x * base ^ b.length + ofDigits base a) / base ^ b.length = x := by
        rw [Nat.mul_comm, Nat.mul_add_div hp, Nat.div_eq_of_lt h1, Nat.add_zero]
      have e2 : (y * base ^ b.length + ofDigits base b) / base ^ b.length = y := by
        rw [Nat.mul_comm, Nat.mul_add_div hp, Nat.div_eq_of_lt h2, Nat.add_zero]
      rw [← e1, ← e2, h]
    subst hx
    rw [ofDigits_inj hl' (fun d hd => ha d (List.mem_cons_of_mem _ hd)) (fun d hd => hb d (List.mem_cons_of_mem _ hd)) (by omega)]

theorem flat_val (n : Nat) (l : List Nat) (h : ∀ d ∈ l, d < 2 ^ n) : bitsVal (l.flatMap (toBits n)) = ofDigits (2 ^ n) l ∧ (l.flatMap (toBits n)).length = n * l.length := by
  induction l with
  | nil => simp [bitsVal, ofDigits]
  | cons x l ih =>
    obtain ⟨h1, h2⟩ := ih fun d hd => h d (List.mem_cons_of_mem _ hd)
    rw [List.flatMap_cons, bitsVal_append, h1, h2, ofDigits_cons, toBits_val, Nat.mod_eq_of_lt (h x (by simp)), ← Nat.pow_mul]
    refine ⟨rfl, ?_⟩
    rw [List.length_append, h2, toBits_length, List.length_cons, Nat.mul_succ, Nat.add_comm]

theorem byteBits_val (b : Bytes) : bitsVal (byteBits b) = beNumber b ∧ (byteBits b).length = 8 * b.length := by
  have h : byteBits b = (b.map UInt8.toNat).flatMap (toBits 8) := by rw [List.flatMap_map]; rfl
  have := flat_val 8 (b.map UInt8.toNat) (by intro d hd; obtain ⟨x, _, rfl⟩ := List.mem_map.1 hd; exact x.toNat_lt)
  rw [h, this.1, this.2, List.length_map]
  exact ⟨rfl, rfl⟩

theorem groups_spec (n : Nat) : ∀ (k : Nat) {l : List Bool}, n * k ≤ l.length →
    (bitGroups n k l).length = k ∧ (∀ g ∈ bitGroups n k l, g.length = n) ∧ (bitGroups n k l).flatten = l.take (n * k)
  | 0, l, _ => by simp [bitGroups]
  | k + 1, l, h => by
    rw [Nat.mul_succ] at h
    obtain ⟨h1, h2, h3⟩ := groups_spec n k (l := l.drop n) (by rw [List.length_drop]; omega)
    rw [bitGroups]
    refine ⟨by rw [List.length_cons, h1], ?_, ?_⟩
    · intro g hg
      rcases List.mem_cons.1 hg with rfl | hg
      · rw [List.length_take]; omega
      · exact h2 g hg
    · rw [List.flatten_cons, h3, Nat.mul_succ, Nat.add_comm, List.take_add]

theorem groups_val {n : Nat} : ∀ {gs : List (List Bool)}, (∀ g ∈ gs, g.length = n) → ofDigits (2 ^ n) (gs.map bitsVal) = bitsVal gs.flatten ∧
    gs.flatten.length = n * gs.length
  | [], _ => by simp [ofDigits, bitsVal]
  | g :: gs, h => by
    obtain ⟨h1, h2⟩ := groups_val (gs := gs) fun g hg => h g (List.mem_cons_of_mem _ hg)
    rw [List.map_cons, ofDigits_cons, List.flatten_cons, bitsVal_append, h1, h2, List.length_map, ← Nat.pow_mul, List.length_append, h2, h g (by simp), List.length_cons,
      Nat.mul_succ]
    exact ⟨rfl, Nat.add_comm _ _⟩

theorem beNumber_inj {a b : Bytes} (hl : a.length = b.length) (h : beNumber a = beNumber b) : a = b := by
  have := ofDigits_inj (base := 256) (by simpa using hl) (by intro d hd; obtain ⟨x, _, rfl⟩ := List.mem_map.1 hd; exact x.toNat_lt)
    (by intro d hd; obtain ⟨x, _, rfl⟩ := List.mem_map.1 hd; exact x.toNat_lt) h
  exact (List.map_inj_right (fun x y => UInt8.toNat_inj.1)).1 this

/-! ## Words -/

theorem split_join {ws : List Str} (hne : ws ≠ []) (h : ∀ w ∈ ws, ' ' ∉ w) : splitAll ' ' (List.intercalate [' '] ws) = ws := by
  induction ws with
  | nil => exact absurd rfl hne
  | cons w ws ih =>
    cases ws with
    | nil => simpa using splitAll_no (h w (by simp))
    | cons w' ws =>
      have e : List.intercalate [' '] (w :: w' :: ws) = w ++ ' ' :: List.intercalate [' '] (w' :: ws) := by
        simp [List.intercalate]
      rw [e, splitAll_app (h w (by simp)), ih (by simp) (fun x hx => h x (List.mem_cons_of_mem _ hx))]

theorem join_split : ∀ s : Str, List.intercalate [' '] (splitAll ' ' s) = s ∧ splitAll ' ' s ≠ []
  | [] => by simp [splitAll, List.intercalate]
  | x :: s => by
    obtain ⟨h1, h2⟩ := join_split s
    rw [splitAll]
    by_cases e : x = ' '
    · rw [if_pos e]
      refine ⟨?_, by simp⟩
      cases hs : splitAll ' ' s with
      | nil => exact absurd hs h2
      | cons p ps =>
        rw [hs] at h1
        rw [e, ← h1]
        simp [List.intercalate]
    · rw [if_neg e]
      cases hs : splitAll ' ' s with
      | nil => exact absurd hs h2
      | cons p ps =>
        refine ⟨?_, by simp⟩
        rw [hs] at h1
        simp only
        rw [← h1]
        cases ps <;> simp [List.intercalate]

theorem index_iff {words : List Str} (hd : words.Nodup) {w : Str} {i : Nat} : wordIndex words w = some i ↔ words[i]? = some w := by
  unfold wordIndex
  rw [List.findIdx?_eq_some_iff_getElem]
  constructor
  · rintro ⟨h1, h2, _⟩
    rw [List.getElem?_eq_getElem h1]
    simpa using h2
  · intro h
    obtain ⟨h1, h2⟩ := List.getElem?_eq_some_iff.1 h
    refine ⟨h1, by simpa using h2, ?_⟩
    intro j hj
    have : words[j]'(by omega) ≠ words[i] := fun e => by
      have := (List.getElem_inj hd).1 e
      omega
    simpa [h2] using this

theorem mapM_some_iff {α β : Type} {f : α → Option β} : ∀ {l : List α} {r : List β}, l.mapM f = some r ↔ r.map some = l.map f
  | [], r => by
    rw [List.mapM_nil]
    cases r <;> simp
  | a :: l, r => by
    rw [List.mapM_cons]
    cases hf : f a with
    | none => cases r <;> simp [hf]
    | some b =>
      cases hl : l.mapM f with
      | none =>
        have : ∀ r : List β, ¬ r.map some = l.map f := fun r h => by rw [mapM_some_iff.2 h] at hl; cases hl
        cases r <;> simp [hf, this]
      | some bs =>
        have h1 := mapM_some_iff.1 hl
        cases r with
        | nil => simp
        | cons x xs =>
          simp only [Option.bind_eq_bind, Option.bind_some, pure, Option.some.injEq, List.map_cons, List.cons.injEq, hf]
          constructor
          · rintro ⟨rfl, rfl⟩; exact ⟨rfl, h1⟩
          · rintro ⟨rfl, h⟩
            rw [← h1] at h
            exact ⟨rfl, ((List.map_inj_right (fun _ _ => Option.some.inj)).1 h).symm⟩

theorem digit_lt {words : List Str} (hw : WordList words) {ps : List Nat} {ws : List Str} (h : ws.map some = ps.map (words[·]?)) : ∀ d ∈ ps, d < 2048 := by
  intro d hd
  have : words[d]? ∈ ws.map some := by rw [h]; exact List.mem_map.2 ⟨d, hd, rfl⟩
  obtain ⟨w, _, hw'⟩ := List.mem_map.1 this
  obtain ⟨h1, _⟩ := List.getElem?_eq_some_iff.1 hw'.symm
  rw [hw.size] at h1
  exact h1

theorem sizes {n : Nat} (h : n ∈ [16, 20, 24, 28, 32]) : n = 16 ∨ n = 20 ∨ n = 24 ∨ n = 28 ∨ n = 32 := by simpa using h

/-- **C123**. The words of a seed of 16, 20, 24, 28 or 32 bytes are the standard ones; other seeds have none. -/
theorem C123_words (sha : Bytes → Bytes) (hs : Digest32 sha) (words : List Str) (hw : WordList words) (seed : Bytes) (text : Str) :
    toMnemonic sha words seed = some text ↔ WordsFor sha words seed text := by
  unfold toMnemonic WordsFor
  by_cases hL : seed.length ∈ [16, 20, 24, 28, 32]
  · have hc : [16, 20, 24, 28, 32].contains seed.length = true := by simpa using hL
    have hn := sizes hL
    rw [if_pos hc]
    simp only [hL, true_and]
    obtain ⟨b, hb⟩ : ∃ b, b = byteBits seed ++ (byteBits (sha seed)).take (seed.length * 8 / 32) := ⟨_, rfl⟩
    rw [← hb]
    obtain ⟨v1, l1⟩ := byteBits_val seed
    obtain ⟨v2, l2⟩ := byteBits_val (sha seed)
    rw [hs] at l2
    have hq : seed.length * 8 / 32 = seed.length / 4 := by omega
    have hlen : b.length = 11 * (3 * seed.length / 4) := by
      rw [hb, List.length_append, List.length_take, l1, l2]; omega
    have hval : bitsVal b = beNumber seed * 2 ^ (seed.length / 4) + beNumber (sha seed) / 2 ^ (256 - seed.length / 4) := by
      rw [hb, bitsVal_append, v1, take_val (by rw [l2]; omega), v2, l2, List.length_take, l2, hq, Nat.min_eq_left (by omega)]
    have hk : b.length / 11 = 3 * seed.length / 4 := by omega
    obtain ⟨g1, g2, g3⟩ := groups_spec 11 (b.length / 11) (l := b) (by omega)
    rw [show 11 * (b.length / 11) = b.length by omega, List.take_length] at g3
    have g4 := (groups_val g2).1
    rw [g3, hval] at g4
    have gl : ∀ d ∈ (bitGroups 11 (b.length / 11) b).map bitsVal, d < 2048 := by
      intro d hd
      obtain ⟨g, hg, rfl⟩ := List.mem_map.1 hd
      have := bitsVal_lt g
      rw [g2 g hg] at this
      exact this
    constructor
    · intro h
      obtain ⟨ws, h1, h2⟩ := Option.bind_eq_some_iff.1 h
      refine ⟨_, ws, ?_, g4, ?_, (Option.some.inj h2).symm⟩
      · rw [List.length_map, g1, hk]; omega
      · rw [mapM_some_iff.1 h1, List.map_map]; rfl
    · rintro ⟨ps, ws, h1, h2, h3, rfl⟩
      have : (bitGroups 11 (b.length / 11) b).map bitsVal = ps := by
        apply ofDigits_inj (base := 2048) _ gl (digit_lt hw h3)
        · rw [h2]; exact g4
        · rw [List.length_map, g1, hk]; omega
      have h4 : (bitGroups 11 (b.length / 11) b).mapM (fun g => words[bitsVal g]?) = some ws := by
        rw [mapM_some_iff, h3, ← this, List.map_map]; rfl
      simp only [h4]
      rfl
  · have hc : [16, 20, 24, 28, 32].contains seed.length = false := by simpa using hL
    rw [hc]
    simp [hL]

theorem entropy_spec {ps : List Nat} (hp : ∀ d ∈ ps, d < 2048) {k : Nat} (hk : ps.length = 3 * k) (bits : List Bool) (hb : bits = ps.flatMap (toBits 11)) :
    bits.length / 33 = k ∧
    ((bitGroups 8 ((bits.length - k) / 8) bits).map fun g => UInt8.ofNat (bitsVal g)).length = 4 * k ∧
    beNumber ((bitGroups 8 ((bits.length - k) / 8) bits).map fun g => UInt8.ofNat (bitsVal g)) = ofDigits 2048 ps / 2 ^ k ∧
    ∀ h : Bytes, h.length = 32 → k ≤ 8 → (bits.drop (bits.length - k) = (byteBits h).take k ↔ ofDigits 2048 ps % 2 ^ k = beNumber h / 2 ^ (256 - k)) := by
  obtain ⟨v, l⟩ := flat_val 11 ps hp
  rw [← hb] at v l
  rw [hk] at l
  have he : bits.length - k = 8 * (4 * k) := by omega
  have he' : (bits.length - k) / 8 = 4 * k := by omega
  obtain ⟨g1, g2, g3⟩ := groups_spec 8 (4 * k) (l := bits) (by omega)
  refine ⟨by omega, by rw [he', List.length_map, g1], ?_, ?_⟩
  · rw [he']
    unfold beNumber
    have h1 : ((bitGroups 8 (4 * k) bits).map fun g => UInt8.ofNat (bitsVal g)).map UInt8.toNat = (bitGroups 8 (4 * k) bits).map bitsVal := by
      rw [List.map_map]
      apply List.map_congr_left
      intro g hg
      have := bitsVal_lt g
      rw [g2 g hg] at this
      exact UInt8.toNat_ofNat_of_lt' this
    rw [h1]
    have h2 := (groups_val g2).1
    rw [g3, take_val (by omega), v] at h2
    rw [show bits.length - 8 * (4 * k) = k by omega] at h2
    exact h2
  · intro h hl hk8
    obtain ⟨v2, l2⟩ := byteBits_val h
    rw [hl] at l2
    have e1 : bitsVal (bits.drop (bits.length - k)) = ofDigits 2048 ps % 2 ^ k := by
      rw [drop_val, v, show bits.length - (bits.length - k) = k by omega]
    have e2 : bitsVal ((byteBits h).take k) = beNumber h / 2 ^ (256 - k) := by
      rw [take_val (by omega), v2, l2]
    rw [← e1, ← e2]
    constructor
    · intro e; rw [e]
    · intro e
      apply bits_inj _ e
      rw [List.length_drop, List.length_take]; omega

theorem top_lt {h : Bytes} (hl : h.length = 32) {k : Nat} (hk : k ≤ 256) : beNumber h / 2 ^ (256 - k) < 2 ^ k := by
  rw [Nat.div_lt_iff_lt_mul (Nat.two_pow_pos _), ← Nat.pow_add, show k + (256 - k) = 256 by omega]
  obtain ⟨v, l⟩ := byteBits_val h
  have := bitsVal_lt (byteBits h)
  rw [v, l, hl] at this
  exact this

/-- **C123**. Words are accepted exactly when they are the words of a seed, and that seed is what they give. -/
theorem C123_entropy (sha : Bytes → Bytes) (hs : Digest32 sha) (words : List Str) (hw : WordList words) (text : Str) (seed : Bytes) :
    toEntropy sha words text = some seed ↔ WordsFor sha words seed text := by
  unfold toEntropy
  simp only
  constructor
  · intro h
    by_cases hc : [12, 15, 18, 21, 24].contains (splitAll ' ' text).length = true
    · rw [if_pos hc] at h
      obtain ⟨ps, h1, h⟩ := Option.bind_eq_some_iff.1 h
      have h2 := mapM_some_iff.1 h1
      have hlen : ps.length = (splitAll ' ' text).length := by
        have := congrArg List.length h2
        simpa using this
      have h3 : (splitAll ' ' text).map some = ps.map (words[·]?) := by
        apply List.ext_getElem (by simp [hlen])
        intro i hi hi'
        simp only [List.length_map] at hi hi'
        have : (ps.map some)[i]'(by simpa using hi') = ((splitAll ' ' text).map (wordIndex words))[i]'(by simpa using hi) := by simp only [h2]
        simp only [List.getElem_map] at this ⊢
        exact ((index_iff hw.distinct).1 this.symm).symm
      have hn : (splitAll ' ' text).length = 12 ∨ (splitAll ' ' text).length = 15 ∨ (splitAll ' ' text).length = 18 ∨ (splitAll ' ' text).length = 21 ∨
          (splitAll ' ' text).length = 24 := by simpa using hc
      obtain ⟨k, hk⟩ : ∃ k, ps.length = 3 * k := ⟨ps.length / 3, by omega⟩
      obtain ⟨bits, hb⟩ : ∃ bits, bits = ps.flatMap (toBits 11) := ⟨_, rfl⟩
      rw [← hb] at h
      obtain ⟨s1, s2, s3, s4⟩ := entropy_spec (digit_lt hw h3) hk bits hb
      rw [s1] at h
      by_cases e : bits.drop (bits.length - k) = (byteBits (sha ((bitGroups 8 ((bits.length - k) / 8) bits).map fun g => UInt8.ofNat (bitsVal g)))).take k
      · rw [if_pos e] at h
        have h := Option.some.inj h
        rw [h] at s2 s3 e
        have s5 := (s4 (sha seed) (hs _) (by omega)).1 e
        refine ⟨?_, ps, splitAll ' ' text, by omega, ?_, h3, (join_split text).1.symm⟩
        · have : k = 4 ∨ k = 5 ∨ k = 6 ∨ k = 7 ∨ k = 8 := by omega
          rcases this with rfl | rfl | rfl | rfl | rfl <;> simp [s2]
        · rw [show seed.length / 4 = k by omega, ← s5, s3, Nat.mul_comm]
          exact (Nat.div_add_mod _ _).symm
      · rw [if_neg e] at h; cases h
    · rw [if_neg hc] at h; cases h
  · rintro ⟨hL, ps, ws, h1, h2, h3, rfl⟩
    have hn := sizes hL
    have hlen : ws.length = ps.length := by
      have := congrArg List.length h3
      simpa using this
    have hmem : ∀ w ∈ ws, w ∈ words := by
      intro w hw'
      have : some w ∈ ps.map (words[·]?) := by rw [← h3]; exact List.mem_map.2 ⟨w, hw', rfl⟩
      obtain ⟨i, _, hi⟩ := List.mem_map.1 this
      exact List.mem_of_getElem? hi
    rw [split_join (by intro e; rw [e] at hlen; simp at hlen; omega) (fun w h => hw.spaceless w (hmem w h))]
    have hc : [12, 15, 18, 21, 24].contains ws.length = true := by
      have : ws.length = 12 ∨ ws.length = 15 ∨ ws.length = 18 ∨ ws.length = 21 ∨ ws.length = 24 := by omega
      simpa using this
    rw [if_pos hc]
    have h4 : ws.mapM (wordIndex words) = some ps := by
      rw [mapM_some_iff]
      apply List.ext_getElem (by simp [hlen])
      intro i hi hi'
      simp only [List.length_map] at hi hi'
      have : (ws.map some)[i]'(by simpa using hi') = (ps.map (words[·]?))[i]'(by simpa using hi) := by simp only [h3]
      simp only [List.getElem_map] at this ⊢
      exact ((index_iff hw.distinct).2 this.symm).symm
    simp only [h4]
    obtain ⟨k, hk⟩ : ∃ k, ps.length = 3 * k := ⟨ps.length / 3, by omega⟩
    obtain ⟨bits, hb⟩ : ∃ bits, bits = ps.flatMap (toBits 11) := ⟨_, rfl⟩
    simp only [bind, Option.bind]
    rw [← hb]
    obtain ⟨s1, s2, s3, s4⟩ := entropy_spec (digit_lt hw h3) hk bits hb
    rw [s1]
    have hk4 : seed.length / 4 = k := by omega
    rw [hk4] at h2
    have ht := top_lt (hs seed) (k := k) (by omega)
    have he : ((bitGroups 8 ((bits.length - k) / 8) bits).map fun g => UInt8.ofNat (bitsVal g)) = seed := by
      apply beNumber_inj (by rw [s2]; omega)
      rw [s3, h2, Nat.mul_comm, Nat.mul_add_div (Nat.two_pow_pos _), Nat.div_eq_of_lt ht, Nat.add_zero]
    rw [he, if_pos]
    · rfl
    · rw [s4 _ (hs _) (by omega), h2, Nat.mul_comm, Nat.mul_add_mod, Nat.mod_eq_of_lt ht]

/-- **C123**. Seeds of these sizes have words. -/
theorem C123_has_words (sha : Bytes → Bytes) (hs : Digest32 sha) (words : List Str) (hw : WordList words) (seed : Bytes) (hl : seed.length ∈ [16, 20, 24, 28, 32]) :
    ∃ text, WordsFor sha words seed text := by
  cases h : toMnemonic sha words seed with
  | some text => exact ⟨text, (C123_words sha hs words hw seed text).1 h⟩
  | none =>
    exfalso
    unfold toMnemonic at h
    have hc : [16, 20, 24, 28, 32].contains seed.length = true := by simpa using hl
    rw [if_pos hc] at h
    have hn := sizes hl
    simp only at h
    obtain ⟨b, hb⟩ : ∃ b, b = byteBits seed ++ (byteBits (sha seed)).take (seed.length * 8 / 32) := ⟨_, rfl⟩
    rw [← hb] at h
    obtain ⟨-, g2, -⟩ := groups_spec 11 (b.length / 11) (l := b) (by omega)
    have key : ∀ gs : List (List Bool), (∀ g ∈ gs, g.length = 11) → ∃ ws, gs.mapM (fun g => words[bitsVal g]?) = some ws := by
      intro gs
      induction gs with
      | nil => intro _; exact ⟨[], rfl⟩
      | cons g gs ih =>
        intro hg
        obtain ⟨ws, h1⟩ := ih fun g h => hg g (List.mem_cons_of_mem _ h)
        have h2 := bitsVal_lt g
        rw [hg g (by simp)] at h2
        have h3 : bitsVal g < words.length := by rw [hw.size]; exact h2
        exact ⟨words[bitsVal g] :: ws, by rw [List.mapM_cons, List.getElem?_eq_getElem h3, h1]; rfl⟩
    obtain ⟨ws, h1⟩ := key _ g2
    rw [h1] at h
    cases h

/-- **C123**. Different seeds have different words, and a seed has one sequence of words only. -/
theorem C123_unique (sha : Bytes → Bytes) (hs : Digest32 sha) (words : List Str) (hw : WordList words) (seed seed' : Bytes) (text text' : Str)
    (h : WordsFor sha words seed text) (h' : WordsFor sha words seed' text') : text = text' ↔ seed = seed' := by
  constructor
  · rintro rfl
    have := (C123_entropy sha hs words hw text seed).2 h
    rw [(C123_entropy sha hs words hw text seed').2 h'] at this
    exact (Option.some.inj this).symm
  · rintro rfl
    have := (C123_words sha hs words hw seed text).2 h
    rw [(C123_words sha hs words hw seed text').2 h'] at this
    exact (Option.some.inj this).symm

/-- **C123** (what holds: not for seeds given as bytes of another number than 16, 20, 24, 28 or 32). Whatever a wallet was made from and whatever has happened to it since, it
tells its words, and a wallet made from these words (with the same number of keys) is the wallet that was made at first. -/
theorem C123_recover_partial (sha : Bytes → Bytes) (hs : Digest32 sha) (words : List Str) (hw : WordList words) (H derive : Bytes → Bytes) (hd : Digest32 derive)
    (random random' : Bytes) (a : SeedArg) (ha : ∀ b, a = .raw b → b.length ∈ [16, 20, 24, 28, 32]) (seed : Bytes)
    (hseed : walletSeed sha words random a = some seed) (n sc : Int) (s s' : Keys) (h : Keys.init H derive seed n sc = .ok s) (hst : KeySteps H derive s s') :
    ∃ text, s'.mnemonic sha words = some text ∧ WordsFor sha words seed text ∧
      ∃ seed', walletSeed sha words random' (.words text) = some seed' ∧ Keys.init H derive seed' n sc = .ok s := by
  have hl : seed.length ∈ [16, 20, 24, 28, 32] := by
    cases a with
    | none =>
      obtain ⟨t, h1, h2⟩ := Option.bind_eq_some_iff.1 hseed
      exact ((C123_entropy sha hs words hw t seed).1 h2).1
    | words t => exact ((C123_entropy sha hs words hw t seed).1 hseed).1
    | raw b => cases hseed; exact ha _ rfl
    | other => cases hseed
  obtain ⟨text, ht⟩ := C123_has_words sha hs words hw seed hl
  refine ⟨text, ?_, ht, seed, (C123_entropy sha hs words hw text seed).2 ht, h⟩
  unfold Keys.mnemonic
  rw [(C59_seed_keys H derive hd seed n sc s s' h hst).1]
  exact (C123_words sha hs words hw seed text).2 ht

/-- **C123**. A wallet made without a seed has the random bytes as its seed. -/
theorem C123_new_wallet (sha : Bytes → Bytes) (hs : Digest32 sha) (words : List Str) (hw : WordList words) (random : Bytes) (hr : random.length = 32) :
    walletSeed sha words random .none = some random := by
  obtain ⟨text, ht⟩ := C123_has_words sha hs words hw random (by rw [hr]; decide)
  show ((toMnemonic sha words random).bind fun t => toEntropy sha words t) = _
  rw [(C123_words sha hs words hw random text).2 ht]
  exact (C123_entropy sha hs words hw text random).2 ht

/-- **C123** (finding). A seed given as bytes may have any size: the wallet works, and cannot be written down as words. -/
theorem C123_raw_false (sha : Bytes → Bytes) (words : List Str) (random b : Bytes) (hb : b.length ∉ [16, 20, 24, 28, 32]) :
    walletSeed sha words random (.raw b) = some b ∧
    ∀ (H derive : Bytes → Bytes) (n sc : Int) (s s' : Keys), Digest32 derive → Keys.init H derive b n sc = .ok s → KeySteps H derive s s' → s'.mnemonic sha words = none := by
  refine ⟨rfl, ?_⟩
  intro H derive n sc s s' hd h hst
  unfold Keys.mnemonic toMnemonic
  rw [(C59_seed_keys H derive hd b n sc s s' h hst).1]
  have hc : [16, 20, 24, 28, 32].contains b.length = false := by simpa using hb
  rw [hc]
  rfl

/-- A word list: the decimal numbers below 2048. -/
def numberWords : List Str := (List.range 2048).map natStr

theorem numberWords_list : WordList numberWords := by
  refine ⟨by simp [numberWords], ?_, ?_⟩
  · unfold numberWords
    refine List.Pairwise.map natStr ?_ (List.nodup_range (n := 2048))
    intro a b hab e
    have := congrArg digVal e
    exact hab (by simpa using this)
  · intro w hw
    obtain ⟨n, _, rfl⟩ := List.mem_map.1 hw
    intro h
    have := natStr_digits n ' ' h
    revert this
    decide

/-- Vectors of BIP39, with the positions of the words for the words: the seeds of 16 bytes 0 and of 16 bytes 7f. -/
example : toMnemonic Hash.sha256 numberWords (List.replicate 16 0) = some "0 0 0 0 0 0 0 0 0 0 0 3".toList ∧
    toEntropy Hash.sha256 numberWords "1019 2015 1790 2039 1983 1533 2031 1919 1019 2015 1790 2040".toList = some (List.replicate 16 0x7f) ∧
    toEntropy Hash.sha256 numberWords "1019 2015 1790 2039 1983 1533 2031 1919 1019 2015 1790 2041".toList = none := by decide +kernel

/-- A wallet with its words. -/
example : ∃ s : Keys, Keys.init toyHash toyHash (List.replicate 16 0) 1 0 = .ok s ∧
    s.mnemonic Hash.sha256 numberWords = some "0 0 0 0 0 0 0 0 0 0 0 3".toList :=
  match h : Keys.init toyHash toyHash (List.replicate 16 0) 1 0 with
  | .ok s => ⟨s, rfl, by
      have := (C59_new_wallet toyHash toyHash toyHash_digest _ 1 0 s h).2.1
      unfold Keys.mnemonic
      rw [this]
      decide +kernel⟩
  | .error e => absurd h (by
      intro h
      have : (Keys.init toyHash toyHash (List.replicate 16 0) 1 0).toOption.isSome = true := by decide +kernel
      rw [h] at this
      cases this)

end TF.Props
