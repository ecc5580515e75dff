import Verif.Spec.Reading
import Verif.Props.Client
import Verif.Props.HostName
import Verif.Props.Base64
import Verif.Props.Conditions
import Verif.Props.Stakes
import Verif.Lemmas.Balance
/-! # C127: JSON is read as exactly what it says -/
namespace TF.Props
open TF TF.Spec

/-! ## Texts -/

theorem bind_iff {α β : Type} {r : Res α} {f : α → Res β} {b : β} : (r >>= f) = .ok b ↔ ∃ a, r = .ok a ∧ f a = .ok b := by
  constructor
  · exact bind_ok
  · rintro ⟨a, h, h'⟩; rw [h]; exact h'

theorem pure_iff {α : Type} {a b : α} : (pure a : Res α) = .ok b ↔ a = b := by
  constructor
  · intro h; cases h; rfl
  · rintro rfl; rfl

theorem char_le (a b : Char) : a ≤ b ↔ a.toNat ≤ b.toNat := by
  show a.val ≤ b.val ↔ _
  exact UInt32.le_iff_toNat_le

theorem hexVal_iff (c : Char) (n : Nat) : hexVal c = some n ↔ HexValue c n := by
  have e1 : '0'.toNat = 48 := rfl
  have e2 : '9'.toNat = 57 := rfl
  have e3 : 'a'.toNat = 97 := rfl
  have e4 : 'f'.toNat = 102 := rfl
  have e5 : 'A'.toNat = 65 := rfl
  have e6 : 'F'.toNat = 70 := rfl
  simp only [hexVal, HexValue, char_le, e1, e2, e3, e4, e5, e6]
  split
  · simp only [Option.some.injEq]; omega
  split
  · simp only [Option.some.injEq]; omega
  split
  · simp only [Option.some.injEq]; omega
  · simp only [reduceCtorEq, false_iff]; omega

theorem asciiSpace_iff (c : Char) : isAsciiSpace c = true ↔ c ∈ [' ', '\t', '\n', '\r', '\x0b', '\x0c'] := by
  have h : ∀ d : Char, c.toNat = d.toNat ↔ c = d := fun d => ⟨fun h => Char.ext (UInt32.toNat_inj.mp h), fun h => by rw [h]⟩
  have h1 := h '\x0b'
  have h2 := h '\x0c'
  simp only [show '\x0b'.toNat = 11 from rfl, show '\x0c'.toNat = 12 from rfl] at h1 h2
  simp only [isAsciiSpace, Bool.or_eq_true, beq_iff_eq, h1, h2, List.mem_cons, List.not_mem_nil, or_false, or_assoc]

theorem hexText_iff (s : Str) (b : Bytes) : fromHex s = some b ↔ HexText s b := by
  constructor
  · revert b
    fun_induction fromHex s with
    | case1 => intro b h; cases h; exact .none
    | case2 c hc => intro b h; cases h; exact .blank _ _ _ ((asciiSpace_iff c).1 hc) .none
    | case3 c hc => intro b h; cases h
    | case4 c d rest hc ih => intro b h; exact .blank _ _ _ ((asciiSpace_iff c).1 hc) (ih b h)
    | case5 c d rest hc ih =>
      intro b h
      cases h1 : hexVal c with
      | none => simp [h1] at h
      | some hi =>
        cases h2 : hexVal d with
        | none => simp [h1, h2] at h
        | some lo =>
          cases h3 : fromHex rest with
          | none => simp [h1, h2, h3] at h
          | some t =>
            simp only [h1, h2, h3, Option.bind_eq_bind, Option.bind_some] at h
            have h := (Option.some.inj h).symm
            subst h
            rw [Nat.mul_comm hi]
            exact .byte _ _ _ _ _ _ ((hexVal_iff _ _).1 h1) ((hexVal_iff _ _).1 h2) (ih t h3)
  · intro h
    induction h with
    | none => rfl
    | blank c s b hc _ ih =>
      have hc := (asciiSpace_iff c).2 hc
      cases s with
      | nil => rw [fromHex.eq_def]; simp only [hc, if_true]; exact ih
      | cons d rest => rw [fromHex.eq_def]; simp only [hc, if_true]; exact ih
    | byte c d hi lo s b h1 h2 _ ih =>
      have hc : isAsciiSpace c = false := by
        cases hs : isAsciiSpace c with
        | false => rfl
        | true =>
          exfalso
          have h1 := (hexVal_iff _ _).2 h1
          rw [asciiSpace_iff] at hs
          simp only [List.mem_cons, List.not_mem_nil, or_false] at hs
          rcases hs with rfl | rfl | rfl | rfl | rfl | rfl <;> exact absurd h1 (by simp [hexVal])
      rw [fromHex.eq_def]
      simp only [hc, Bool.false_eq_true, if_false, (hexVal_iff _ _).2 h1, (hexVal_iff _ _).2 h2, ih, Option.bind_eq_bind, Option.bind_some, Nat.mul_comm hi]
      rfl

theorem newStr_iff (n : Nat) (hn : n ≠ 0) (enc : StrEnc) (s : Str) (d : BinData) :
    BinData.new (.str s) (some (n : Int)) enc = .ok d ↔ ∃ b, enc.fromStr s = some b ∧ (b = [] ∨ b.length = n) ∧ d = ⟨b, some n, enc⟩ := by
  unfold BinData.new
  dsimp only
  rw [if_neg (by omega), if_pos (by omega)]
  unfold BinData.set
  rw [bind_iff]
  dsimp only
  simp only [BVal.norm, Int.toNat_natCast]
  cases enc.fromStr s with
  | none => simp
  | some b =>
    dsimp only
    constructor
    · rintro ⟨a, h, h'⟩
      cases h
      split at h'
      · cases h'
      · rename_i hb
        refine ⟨b, rfl, ?_, (pure_iff.1 h').symm⟩
        by_cases e : b.length = 0
        · exact .inl (List.length_eq_zero_iff.mp e)
        · exact .inr (Decidable.byContradiction fun h => hb ⟨e, h⟩)
    · rintro ⟨b', h, h', rfl⟩
      cases h
      refine ⟨b, rfl, ?_⟩
      rw [if_neg]
      · rfl
      · rintro ⟨h1, h2⟩
        rcases h' with rfl | h'
        · exact h1 rfl
        · exact h2 h'

theorem newNone_iff (n : Nat) (hn : n ≠ 0) (enc : StrEnc) (d : BinData) : BinData.new .none (some (n : Int)) enc = .ok d ↔ d = ⟨[], some n, enc⟩ := by
  unfold BinData.new
  dsimp only
  rw [if_neg (by omega), if_pos (by omega)]
  unfold BinData.set
  rw [bind_iff]
  simp only [BVal.norm, Except.ok.injEq, Int.toNat_natCast]
  constructor
  · rintro ⟨a, rfl, h⟩; exact (pure_iff.1 h).symm
  · rintro rfl; exact ⟨_, rfl, rfl⟩

theorem none32 (d : BinData) : BinData.new .none (some 32) .hex = .ok d ↔ d = ⟨[], some 32, .hex⟩ := newNone_iff 32 (by decide) .hex d
theorem none64 (d : BinData) : BinData.new .none (some 64) .hex = .ok d ↔ d = ⟨[], some 64, .hex⟩ := newNone_iff 64 (by decide) .hex d

theorem sized_iff (n : Nat) (hn : n ≠ 0) (s : Str) (b : Bytes) :
    (∃ d, BinData.new (.str s) (some (n : Int)) .hex = .ok d ∧ d.value = b) ↔ SizedText n s b := by
  simp only [newStr_iff n hn]
  simp only [StrEnc.fromStr, hexText_iff, SizedText]
  constructor
  · rintro ⟨d, ⟨b', h1, h2, rfl⟩, rfl⟩; exact ⟨h1, h2⟩
  · rintro ⟨h1, h2⟩; exact ⟨_, ⟨b, h1, h2, rfl⟩, rfl⟩

theorem sized_empty (n : Nat) (b : Bytes) : SizedText n [] b ↔ b = [] := by
  constructor
  · rintro ⟨h, -⟩; cases h; rfl
  · rintro rfl; exact ⟨.none, .inl rfl⟩

theorem hashNew_iff (s : Str) (h : Hash) : Hash.new (.str s) = .ok h ↔ SizedText 32 s h.value := by
  rw [← sized_iff 32 (by decide)]
  unfold Hash.new
  rw [bind_iff]
  simp only [pure_iff]
  constructor
  · rintro ⟨d, h1, rfl⟩; exact ⟨d, h1, rfl⟩
  · rintro ⟨d, h1, h2⟩; exact ⟨d, h1, by rw [h2]⟩

theorem hashJson_iff (s : Str) (h : Hash) : Hash.fromJson s = .ok h ↔ SizedText 32 s h.value := by
  unfold Hash.fromJson
  by_cases e : s = []
  · subst e
    rw [if_pos rfl, sized_empty]
    unfold Hash.new
    rw [bind_iff]
    simp only [none32, exists_eq_left, pure_iff]
    constructor
    · rintro rfl; rfl
    · intro h'; rw [← h']
  · rw [if_neg e]; exact hashNew_iff s h

theorem hashOf_iff (j : Json) (h : Hash) : hashOfJson j = .ok h ↔ InTextOrNull (SizedText 32) j h.value := by
  unfold InTextOrNull InText
  cases j with
  | null =>
    simp only [hashOfJson, reduceCtorEq, false_and, exists_false, or_false, true_and, sized_empty]
    unfold Hash.new
    rw [bind_iff]
    simp only [none32, exists_eq_left, pure_iff]
    constructor
    · rintro rfl; rfl
    · intro h'; rw [← h']
  | str s => simp [hashOfJson, hashJson_iff]
  | _ => simp [hashOfJson]

theorem signature_iff (j : Json) (a : Bool) (s : Signature) : Signature.fromJson j a = .ok s ↔ SaysSignature a j s := by
  have hnone : Signature.new .none a = .ok s ↔ s.value = [] ∧ s.asArray = a := by
    unfold Signature.new
    rw [bind_iff]
    simp only [none64, exists_eq_left, pure_iff]
    constructor
    · rintro rfl; exact ⟨rfl, rfl⟩
    · rintro ⟨h1, h2⟩; rw [← h1, ← h2]
  unfold SaysSignature InTextOrNull InText Signature.fromJson
  cases j with
  | null => simp [hnone, sized_empty]
  | str t =>
    by_cases e : t = []
    · subst e; simp [hnone, sized_empty]
    · simp only [if_neg e, reduceCtorEq, false_and, Json.str.injEq, exists_eq_left', false_or]
      rw [← sized_iff 64 (by decide)]
      unfold Signature.new
      rw [bind_iff]
      simp only [pure_iff]
      constructor
      · rintro ⟨d, h1, rfl⟩; exact ⟨⟨d, h1, rfl⟩, rfl⟩
      · rintro ⟨⟨d, h1, h2⟩, h3⟩; exact ⟨d, h1, by rw [h2, ← h3]⟩
  | _ => simp

/-- **C127** (addresses). A text is read as an address exactly when it is the text of it. -/
theorem C127_address (H : Bytes → Bytes) (s : Str) (u : UnlockHash) : UnlockHash.fromStr H s = .ok u ↔ AddressText H s u := by
  have ht : ∀ t : UInt8, (t.toNat : Int) = 0 ↔ t = 0 := by
    intro t
    constructor
    · intro h; exact UInt8.toNat_inj.mp (by show t.toNat = 0; omega)
    · rintro rfl; rfl
  constructor
  · intro h
    obtain ⟨h1, h2, -, -, -, -⟩ := C23_accepted_address_partial H s u h
    refine ⟨s.take 2, (s.drop 2).take 64, s.drop 66, ?_, by simp; omega, by simp; omega, by simp; omega, (pyInt_iff _ _).1 h2, ?_⟩
    · rw [List.append_assoc, show s.drop 66 = (s.drop 2).drop 64 by simp, List.take_append_drop, List.take_append_drop]
    · unfold UnlockHash.fromStr at h
      rw [if_neg (by omega), h2] at h
      dsimp only at h
      split at h
      · cases h
      rename_i hh hhash
      rw [if_neg (by omega)] at h
      by_cases h0 : (u.type.toNat : Int) = 0
      · rw [if_pos h0] at h
        split at h
        · cases h
        · rename_i hz
          cases h
          exact ⟨(hashNew_iff _ _).1 hhash, .inl ⟨rfl, by simpa using hz⟩⟩
      · rw [if_neg h0] at h
        split at h
        · cases h
        · rename_i hz
          have hu : u = ⟨u.type, hh⟩ := by
            have := (Except.ok.inj h).symm
            simp only [Int.toNat_natCast, UInt8.ofNat_toNat] at this
            exact this
          have hz : ¬ toHex (((⟨u.type, hh⟩ : UnlockHash).checksum H).take 6) ≠ s.drop (s.length - 12) := by
            simpa only [Int.toNat_natCast, UInt8.ofNat_toNat] using hz
          rw [← hu, Decidable.not_not, h1] at hz
          refine ⟨?_, .inr ⟨fun e => h0 ((ht _).2 e), ?_⟩⟩
          · rw [hu]; exact (hashNew_iff _ _).1 hhash
          · rw [← hz, UnlockHash.checksum, if_neg fun e => h0 ((ht _).2 e)]
  · rintro ⟨a, b, c, rfl, ha, hb, hc, h1, h2, h3⟩
    have e1 : (a ++ b ++ c).take 2 = a := by rw [List.append_assoc, List.take_append_of_le_length (by omega), List.take_of_length_le (by omega)]
    have e2 : ((a ++ b ++ c).drop 2).take 64 = b := by
      rw [List.append_assoc, List.drop_append, List.drop_of_length_le (by omega), ha, List.nil_append, List.drop_zero, List.take_append_of_le_length (by omega), List.take_of_length_le (by omega)]
    have el : (a ++ b ++ c).length = 78 := by simp; omega
    have e3 : (a ++ b ++ c).drop ((a ++ b ++ c).length - 12) = c := by
      rw [el, List.drop_append, List.drop_of_length_le (by simp; omega), List.nil_append, show (a ++ b).length = 66 by simp; omega]; rfl
    unfold UnlockHash.fromStr
    rw [if_neg (by omega), e1, (pyInt_iff _ _).2 h1, e2, (hashNew_iff b u.hash).2 h2]
    dsimp only
    rw [if_neg (by omega)]
    rcases h3 with ⟨h3, h4⟩ | ⟨h3, h4⟩
    · rw [if_pos ((ht _).2 h3), if_neg (by simpa using h4), ← h3]
    · rw [if_neg fun e => h3 ((ht _).1 e), if_neg]
      · simp only [Int.toNat_natCast, UInt8.ofNat_toNat]
      · rw [e3, h4, Decidable.not_not]
        simp only [Int.toNat_natCast, UInt8.ofNat_toNat, UnlockHash.checksum, if_neg h3]
/-- The text of the nil address. -/
def nilText : Str := List.replicate 78 '0'
/-- What is refused is read as nothing at all. -/
theorem refused {α : Type} {r : Res α} (h : (match r with | .ok _ => true | .error _ => false) = false) (a : α) : r ≠ .ok a := by
  rintro rfl; cases h
/-- The address of a wallet has one text but for blanks and the case of its hash; the nil address has a text for every checksum. -/
example : AddressText toyHash (toHex [1] ++ toHex (List.replicate 32 0xab) ++ toHex ((toyHash (1 :: List.replicate 32 0xab)).take 6)) ⟨1, ⟨List.replicate 32 0xab⟩⟩ ∧
    AddressText toyHash (toHex [1] ++ List.flatten (List.replicate 32 ['A', 'b']) ++ toHex ((toyHash (1 :: List.replicate 32 0xab)).take 6)) ⟨1, ⟨List.replicate 32 0xab⟩⟩ ∧
    AddressText toyHash (List.replicate 66 '0' ++ "no checksum!".toList) ⟨0, ⟨List.replicate 32 0⟩⟩ :=
  ⟨(C127_address _ _ _).1 (by decide +kernel), (C127_address _ _ _).1 (by decide +kernel), (C127_address _ _ _).1 (by decide +kernel)⟩
/-- A wrong checksum and a missing character are refused. -/
example (u : UnlockHash) : ¬ AddressText toyHash (toHex [1] ++ toHex (List.replicate 32 0xab) ++ List.replicate 12 '0') u ∧ ¬ AddressText toyHash (List.replicate 77 '0') u :=
  ⟨fun h => refused (by decide +kernel) u ((C127_address _ _ _).2 h), fun h => refused (by decide +kernel) u ((C127_address _ _ _).2 h)⟩

theorem addressJson_iff (H : Bytes → Bytes) (j : Json) (u : UnlockHash) : UnlockHash.fromJson H j = .ok u ↔ InText (AddressText H) j u := by
  unfold InText
  cases j <;> simp [UnlockHash.fromJson, C127_address]

theorem nothing_iff (j : Json) : Nothing j ↔ j.truthy = false := by
  cases j with
  | null => simp [Nothing, Json.truthy]
  | bool b => simp [Nothing, Json.truthy]
  | int i => simp [Nothing, Json.truthy]
  | str s => cases s <;> simp [Nothing, Json.truthy]
  | arr l => cases l <;> simp [Nothing, Json.truthy]
  | obj l => cases l <;> simp [Nothing, Json.truthy]
  | ver n => simp [Nothing, Json.truthy]

theorem not_nothing_iff (j : Json) : ¬ Nothing j ↔ j.truthy = true := by
  rw [nothing_iff]; simp

theorem colon_once (s : Str) : s.count ':' = 1 ↔ ∃ a b : Str, s = a ++ ':' :: b ∧ ':' ∉ a ∧ ':' ∉ b := by
  constructor
  · intro h
    have hm : ':' ∈ s := List.count_pos_iff.mp (by omega)
    obtain ⟨a, b, rfl, ha⟩ := List.append_of_mem hm |> fun ⟨_, _, _⟩ => List.eq_append_cons_of_mem hm
    refine ⟨a, b, rfl, ha, ?_⟩
    rw [List.count_append, List.count_cons_self] at h
    exact List.count_eq_zero.mp (by omega)
  · rintro ⟨a, b, rfl, ha, hb⟩
    rw [List.count_append, List.count_cons_self, List.count_eq_zero.mpr ha, List.count_eq_zero.mpr hb]

theorem take_colon {a b : Str} (ha : ':' ∉ a) : (a ++ ':' :: b).takeWhile (· ≠ ':') = a ∧ ((a ++ ':' :: b).dropWhile (· ≠ ':')).drop 1 = b := by
  induction a with
  | nil => simp
  | cons c a ih =>
    simp only [List.mem_cons, not_or] at ha
    obtain ⟨h1, h2⟩ := ih ha.2
    have hc : decide (c ≠ ':') = true := by simp; exact fun e => ha.1 e.symm
    rw [List.cons_append, List.takeWhile_cons_of_pos (p := fun x => decide (x ≠ ':')) hc, List.dropWhile_cons_of_pos (p := fun x => decide (x ≠ ':')) hc, h1]
    exact ⟨rfl, h2⟩

/-- **C127** (keys). A text is read as a public key exactly when it is the text of it. -/
theorem C127_key (s : Str) (k : PublicKey) : PublicKey.fromStr s = .ok k ↔ KeyText s k := by
  unfold PublicKey.fromStr KeyText
  by_cases e : s = []
  · subst e
    simp only [if_true, true_and, Except.ok.injEq]
    constructor
    · rintro rfl; exact .inl rfl
    · rintro (rfl | ⟨a, b, h, -⟩)
      · rfl
      · cases a <;> cases h
  · rw [if_neg e]
    simp only [e, false_and, false_or]
    by_cases hc : s.count ':' = 1
    · rw [if_neg (by omega)]
      obtain ⟨a, b, rfl, ha, hb⟩ := (colon_once s).1 hc
      rw [(take_colon ha).1, (take_colon ha).2, bind_iff]
      simp only [bind_iff, pure_iff, hashJson_iff]
      constructor
      · rintro ⟨sp, h1, h, h2, rfl⟩
        refine ⟨a, b, rfl, ha, hb, h2, ?_⟩
        unfold KeySpec.fromStr at h1
        split at h1
        · rename_i h0; cases h1; exact .inl ⟨h0, rfl⟩
        · split at h1
          · rename_i h0; cases h1; exact .inr ⟨h0, rfl⟩
          · cases h1
      · rintro ⟨a', b', h0, ha', hb', h2, h1⟩
        have e1 := (take_colon (b := b) ha).1
        have e2 := (take_colon (b := b) ha).2
        rw [h0, (take_colon ha').1] at e1
        rw [h0, (take_colon ha').2] at e2
        subst e1; subst e2
        refine ⟨k.spec, ?_, k.hash, h2, rfl⟩
        rcases h1 with ⟨rfl, h1⟩ | ⟨rfl, h1⟩
        · rw [h1]; rfl
        · rw [h1]; rfl
    · rw [if_pos hc]
      constructor
      · intro h; cases h
      · rintro ⟨a, b, rfl, ha, hb, -⟩
        exact absurd ((colon_once _).2 ⟨a, b, rfl, ha, hb⟩) hc
/-- A key, a key without the name of its algorithm; two colons, another algorithm and a key of 31 bytes are refused. -/
example : KeyText ("ed25519:".toList ++ toHex (List.replicate 32 7)) ⟨.ed25519, ⟨List.replicate 32 7⟩⟩ ∧ KeyText (':' :: toHex (List.replicate 32 7)) ⟨.nil, ⟨List.replicate 32 7⟩⟩ ∧
    ∀ k, ¬ KeyText "ed25519::".toList k ∧ ¬ KeyText ("rsa:".toList ++ toHex (List.replicate 32 7)) k ∧ ¬ KeyText ("ed25519:".toList ++ toHex (List.replicate 31 7)) k :=
  ⟨(C127_key _ _).1 (by decide +kernel), (C127_key _ _).1 (by decide +kernel), fun k => ⟨fun h => refused (by decide +kernel) k ((C127_key _ _).2 h),
    fun h => refused (by decide +kernel) k ((C127_key _ _).2 h), fun h => refused (by decide +kernel) k ((C127_key _ _).2 h)⟩⟩

theorem keyJson_iff (j : Json) (k : PublicKey) : PublicKey.fromJson j = .ok k ↔ SaysKey j k := by
  unfold PublicKey.fromJson SaysKey InText
  by_cases e : Nothing j
  · have := (nothing_iff j).1 e
    simp only [this, Bool.not_false, if_true, e, not_true_eq_false, false_and, or_false, true_and, Except.ok.injEq, eq_comm]
  · have := (not_nothing_iff j).1 e
    simp only [this, Bool.not_true, Bool.false_eq_true, if_false, e, not_false_eq_true, true_and, false_and, false_or]
    cases j <;> simp [C127_key]

/-! ## JSON values -/

theorem idx_iff (j : Json) (k : String) (v : Json) : j.idx k = .ok v ↔ FieldIs j k v := by
  unfold FieldIs Json.idx
  cases j with
  | obj l =>
    simp only [Json.obj.injEq, exists_eq_left']
    cases jget l k <;> simp
  | _ => simp

theorem get_iff (j : Json) (k : String) (o : Option Json) : j.get? k = .ok o ↔ (∃ v, FieldIs j k v ∧ o = some v) ∨ Lacks j k ∧ o = none := by
  unfold FieldIs Lacks Json.get?
  cases j with
  | obj l =>
    simp only [Json.obj.injEq, exists_eq_left', Except.ok.injEq]
    cases jget l k <;> simp [eq_comm]
  | _ => simp

theorem fieldIs_unique {j : Json} {k : String} {v w : Json} (h : FieldIs j k v) (h' : FieldIs j k w) : v = w := by
  obtain ⟨l, rfl, h⟩ := h
  obtain ⟨l', e, h'⟩ := h'
  cases e
  rw [h] at h'; exact Option.some.inj h'
theorem not_lacks {j : Json} {k : String} {v : Json} (h : FieldIs j k v) : ¬ Lacks j k := by
  rintro ⟨l', e, h'⟩
  obtain ⟨l, rfl, h⟩ := h
  cases e
  rw [h] at h'; cases h'

theorem getD_iff (j : Json) (k : String) (dflt v : Json) : j.getD k dflt = .ok v ↔ FieldOr j k dflt v := by
  unfold Json.getD FieldOr
  simp only [bind_iff, get_iff]
  constructor
  · rintro ⟨o, ⟨w, h, rfl⟩ | ⟨h, rfl⟩, h'⟩
    · cases h'; exact .inl h
    · cases h'; exact .inr ⟨h, rfl⟩
  · rintro (h | ⟨h, rfl⟩)
    · exact ⟨some v, .inl ⟨v, h, rfl⟩, rfl⟩
    · exact ⟨none, .inr ⟨h, rfl⟩, rfl⟩

theorem orDefault_iff (j : Json) (k : String) (dflt v : Json) : j.orDefault k dflt = .ok v ↔ Filled j k dflt v := by
  unfold Json.orDefault Filled
  simp only [bind_iff, get_iff]
  constructor
  · rintro ⟨o, ⟨w, h, rfl⟩ | ⟨h, rfl⟩, h'⟩
    · refine .inr ⟨w, h, ?_⟩
      dsimp only at h'
      split at h'
      · rename_i e; cases h'; exact .inr ⟨(not_nothing_iff _).2 e, rfl⟩
      · rename_i e; cases h'; exact .inl ⟨(nothing_iff _).2 (by simpa using e), rfl⟩
    · cases h'; exact .inl ⟨h, rfl⟩
  · rintro (⟨h, rfl⟩ | ⟨w, h, ⟨e, rfl⟩ | ⟨e, rfl⟩⟩)
    · exact ⟨none, .inr ⟨h, rfl⟩, rfl⟩
    · refine ⟨some w, .inl ⟨w, h, rfl⟩, ?_⟩; dsimp only; rw [(nothing_iff _).1 e]; rfl
    · refine ⟨some v, .inl ⟨v, h, rfl⟩, ?_⟩; dsimp only; rw [(not_nothing_iff _).1 e]; rfl

theorem equalTo_iff (v : Json) (i : Int) : v.asInt? = some i ↔ EqualTo v i := by
  unfold EqualTo
  cases v with
  | bool b => cases b <;> simp [Json.asInt?, eq_comm]
  | _ => simp [Json.asInt?, eq_comm]

theorem toInt_iff (v : Json) (i : Int) : v.toInt = .ok i ↔ NumberOf v i := by
  unfold NumberOf
  rw [← equalTo_iff]
  cases v with
  | str s =>
    simp only [Json.toInt, Json.asInt?, reduceCtorEq, false_or, Json.str.injEq, exists_eq_left', ← pyInt_iff]
    cases pyInt s <;> simp
  | _ => simp [Json.toInt, Json.asInt?]

theorem iter_iff (v : Json) (xs : List Json) : v.iter = .ok xs ↔ Members v xs := by
  unfold Members
  cases v <;> simp [Json.iter, eq_comm]

theorem mapM_iff {α β : Type} {f : α → Res β} {R : α → β → Prop} (hf : ∀ x y, f x = .ok y ↔ R x y) :
    ∀ (xs : List α) (l : List β), xs.mapM f = .ok l ↔ List.Forall₂ R xs l
  | [], l => by
    rw [List.mapM_nil, pure_iff]
    constructor
    · rintro rfl; exact .nil
    · intro h; cases h; rfl
  | x :: xs, l => by
    rw [List.mapM_cons]
    simp only [bind_iff, pure_iff, hf, mapM_iff hf xs]
    constructor
    · rintro ⟨y, h1, ys, h2, rfl⟩; exact .cons h1 h2
    · intro h; cases h with
      | cons h1 h2 => exact ⟨_, h1, _, h2, rfl⟩

theorem listField_iff {α : Type} {f : Json → Res α} {R : Json → α → Prop} (hf : ∀ x y, f x = .ok y ↔ R x y) (d : Json) (k : String) (l : List α) :
    (∃ xs, d.listField k = .ok xs ∧ xs.mapM f = .ok l) ↔ ListIs d k R l := by
  unfold Json.listField ListIs
  simp only [bind_iff, get_iff, mapM_iff hf]
  constructor
  · rintro ⟨xs, ⟨o, ⟨v, h, rfl⟩ | ⟨h, rfl⟩, h'⟩, hx⟩
    · refine .inr ⟨v, h, ?_⟩
      dsimp only at h'
      split at h'
      · rename_i e; exact .inr ⟨(not_nothing_iff _).2 e, xs, (iter_iff _ _).1 h', hx⟩
      · rename_i e; cases h'; cases hx; exact .inl ⟨(nothing_iff _).2 (by simpa using e), rfl⟩
    · cases h'; cases hx; exact .inl ⟨h, rfl⟩
  · rintro (⟨h, rfl⟩ | ⟨w, h, ⟨e, rfl⟩ | ⟨e, xs, hm, hx⟩⟩)
    · exact ⟨[], ⟨none, .inr ⟨h, rfl⟩, rfl⟩, .nil⟩
    · refine ⟨[], ⟨some w, .inl ⟨w, h, rfl⟩, ?_⟩, .nil⟩; dsimp only; rw [(nothing_iff _).1 e]; rfl
    · refine ⟨xs, ⟨some w, .inl ⟨w, h, rfl⟩, ?_⟩, hx⟩; dsimp only; rw [(not_nothing_iff _).1 e]; exact (iter_iff _ _).2 hm

theorem intField_iff (d : Json) (k : String) (i : Int) : intField d k = .ok i ↔ Number d k i := by
  unfold intField Number
  simp only [bind_iff, orDefault_iff, toInt_iff]

theorem contains_iff (sub : Str) : ∀ s : Str, strContains sub s = true ↔ sub <:+: s
  | [] => by simp [strContains]
  | c :: s => by
    simp only [strContains, Bool.or_eq_true, contains_iff sub s, List.infix_cons_iff, List.isPrefixOf_iff_prefix]

theorem has_iff (d : Json) (k : String) : (d.has k = .ok false ↔ Absent d k) ∧ (d.has k = .ok true → (∃ v, FieldIs d k v) ∨ ∀ v, d.idx k ≠ .ok v) ∧
    ((∃ v, FieldIs d k v) → d.has k = .ok true) := by
  unfold Absent Lacks FieldIs Json.has
  cases d with
  | obj l =>
    simp only [Json.obj.injEq, exists_eq_left', Except.ok.injEq, reduceCtorEq, false_and, exists_false, or_false]
    cases jget l k <;> simp
  | arr l =>
    simp only [reduceCtorEq, false_and, exists_false, Json.arr.injEq, exists_eq_left', false_or, or_false, Except.ok.injEq, Json.idx, ne_eq, not_false_eq_true, implies_true,
      or_true, false_implies, and_true]
    constructor
    · intro h hm
      have := List.any_eq_false.mp h _ hm
      simp at this
    · intro h
      rw [List.any_eq_false]
      intro x hx
      split
      · intro e; exact h (by rw [← (beq_iff_eq.mp e)]; exact hx)
      · simp
  | str s =>
    simp only [reduceCtorEq, false_and, exists_false, Json.str.injEq, exists_eq_left', false_or, Except.ok.injEq, ← contains_iff, Json.idx]
    simp
  | _ => simp

theorem optField_iff {α : Type} {f : Json → Res α} {R : Json → α → Prop} (hf : ∀ x y, f x = .ok y ↔ R x y) (d : Json) (k : String) (o : Option α) :
    optField d k f = .ok o ↔ Maybe d k R o := by
  unfold optField Maybe
  obtain ⟨h1, h2, h3⟩ := has_iff d k
  simp only [bind_iff]
  constructor
  · rintro ⟨b, hb, h⟩
    cases b with
    | false => simp only [Bool.false_eq_true, if_false] at h; cases h; exact .inl ⟨h1.1 hb, rfl⟩
    | true =>
      simp only [if_true, bind_iff, pure_iff, idx_iff, hf] at h
      obtain ⟨v, hv, x, hx, rfl⟩ := h
      exact .inr ⟨v, x, hv, hx, rfl⟩
  · rintro (⟨h, rfl⟩ | ⟨v, x, hv, hx, rfl⟩)
    · exact ⟨false, h1.2 h, rfl⟩
    · refine ⟨true, h3 ⟨v, hv⟩, ?_⟩
      simp only [if_true, bind_iff, pure_iff, idx_iff, hf]
      exact ⟨v, hv, x, hx, rfl⟩

/-! ## Conditions and fulfillments -/

theorem condType_iff (j : Json) (n : Int) : condTypeOf j = .ok (some n) ↔ KindIs j n := by
  unfold condTypeOf KindIs FieldOr
  simp only [bind_iff, get_iff]
  constructor
  · rintro ⟨o, ⟨v, h, rfl⟩ | ⟨h, rfl⟩, h'⟩
    · exact ⟨v, .inl h, (equalTo_iff _ _).1 (pure_iff.1 h')⟩
    · exact ⟨_, .inr ⟨h, rfl⟩, by cases h'; exact .inl rfl⟩
  · rintro ⟨v, h | ⟨h, rfl⟩, h'⟩
    · exact ⟨some v, .inl ⟨v, h, rfl⟩, pure_iff.2 ((equalTo_iff _ _).2 h')⟩
    · refine ⟨none, .inr ⟨h, rfl⟩, ?_⟩
      rcases h' with h' | ⟨_, h', -⟩ | ⟨h', -⟩ | ⟨h', -⟩ <;> cases h'
      rfl

theorem condData_iff (j d : Json) : condDataOf j = .ok d ↔ Described j d := by
  unfold Described
  rw [← getD_iff]
  rfl

theorem kind_unique {j : Json} {n m : Int} (h : KindIs j n) (h' : KindIs j m) : n = m := by
  rw [← condType_iff] at h h'
  rw [h] at h'
  exact Option.some.inj (Except.ok.inj h')

theorem multiSig_iff (H : Bytes → Bytes) (d : Json) (c : Condition) : multiSigOfJson H d = .ok c ↔
    ∃ m n v xs us, FieldIs d "minimumsignaturecount" m ∧ NumberOf m n ∧ FieldIs d "unlockhashes" v ∧ Members v xs ∧
      List.Forall₂ (InText (AddressText H)) xs us ∧ c = .multiSig us n := by
  unfold multiSigOfJson
  simp only [bind_iff, idx_iff, toInt_iff, iter_iff, mapM_iff (addressJson_iff H), pure_iff]
  constructor
  · rintro ⟨m, h1, n, h2, v, h3, xs, h4, us, h5, rfl⟩; exact ⟨m, n, v, xs, us, h1, h2, h3, h4, h5, rfl⟩
  · rintro ⟨m, n, v, xs, us, h1, h2, h3, h4, h5, rfl⟩; exact ⟨m, h1, n, h2, v, h3, xs, h4, us, h5, rfl⟩

theorem nilData_iff (d : Json) (c : Condition) : nilOfJson d = .ok c ↔ (d = .null ∨ d = .obj []) ∧ c = .nil := by
  unfold nilOfJson
  split
  · simp [eq_comm]
  · simp [eq_comm]
  · rename_i h1 h2
    constructor
    · intro h; cases h
    · rintro ⟨rfl | rfl, -⟩
      · exact absurd rfl h1
      · exact absurd rfl h2

theorem bare_iff (H : Bytes → Bytes) (j : Json) (c : Condition) : lockInnerOfJson H j = .ok c ↔ ∃ d, BareCondition H j d c := by
  unfold lockInnerOfJson
  rw [bind_iff]
  constructor
  · rintro ⟨o, ho, h⟩
    split at h
    · obtain ⟨d, hd, h⟩ := bind_ok h
      obtain ⟨h', rfl⟩ := (nilData_iff _ _).1 h
      exact ⟨d, .nil ((condType_iff _ _).1 ho) ((condData_iff _ _).1 hd) h'⟩
    · obtain ⟨d, hd, h⟩ := bind_ok h
      obtain ⟨v, hv, h⟩ := bind_ok h
      obtain ⟨u, hu, h⟩ := bind_ok h
      cases h
      exact ⟨d, .wallet v u ((condType_iff _ _).1 ho) ((condData_iff _ _).1 hd) ((idx_iff _ _ _).1 hv) ((addressJson_iff _ _ _).1 hu)⟩
    · obtain ⟨d, hd, h⟩ := bind_ok h
      obtain ⟨m, n, v, xs, us, h1, h2, h3, h4, h5, rfl⟩ := (multiSig_iff _ _ _).1 h
      exact ⟨d, .multi m v n xs us ((condType_iff _ _).1 ho) ((condData_iff _ _).1 hd) h1 h2 h3 h4 h5⟩
    · cases h
  · rintro ⟨d, h⟩
    cases h with
    | nil hk hd h =>
      refine ⟨some 0, (condType_iff _ _).2 hk, ?_⟩
      exact bind_iff.2 ⟨d, (condData_iff _ _).2 hd, (nilData_iff _ _).2 ⟨h, rfl⟩⟩
    | wallet v u hk hd hv hu =>
      refine ⟨some 1, (condType_iff _ _).2 hk, ?_⟩
      simp only [bind_iff, pure_iff]
      exact ⟨d, (condData_iff _ _).2 hd, v, (idx_iff _ _ _).2 hv, u, (addressJson_iff _ _ _).2 hu, rfl⟩
    | multi m v n xs us hk hd h1 h2 h3 h4 h5 =>
      refine ⟨some 4, (condType_iff _ _).2 hk, ?_⟩
      exact bind_iff.2 ⟨d, (condData_iff _ _).2 hd, (multiSig_iff _ _ _).2 ⟨m, n, v, xs, us, h1, h2, h3, h4, h5, rfl⟩⟩

theorem swapParty_iff (u v : UnlockHash) : swapParty u = .ok v ↔ (u.type = 0 ∨ u.type = 1) ∧ v = u := by
  unfold swapParty
  split
  · rename_i h
    simp only [Except.ok.injEq, h.symm, true_and, eq_comm]
  · rename_i h
    have : ¬ (u.type = 0 ∨ u.type = 1) := fun e => h e.symm
    simp [this]

theorem secretHash_iff (j : Json) (b : Bytes) : secretHashOfJson j = .ok b ↔ InTextOrNull (SizedText 32) j b := by
  unfold InTextOrNull InText secretHashOfJson
  cases j with
  | null => simp [sized_empty, eq_comm]
  | str s =>
    simp only [bind_iff, pure_iff, reduceCtorEq, false_and, Json.str.injEq, exists_eq_left', false_or]
    exact sized_iff 32 (by decide) s b
  | _ => simp

theorem swapLock_iff (v l : Int) : swapLockTime v = .ok l ↔ 500000000 ≤ v ∧ l = v := by
  unfold swapLockTime
  simp only [bind_iff, outputLock, lockIsTimestamp]
  by_cases h : v < 0
  · rw [if_pos h]; simp; omega
  · rw [if_neg h]
    simp only [Except.ok.injEq, exists_eq_left', decide_eq_true_eq]
    split
    · rename_i h1; rw [pure_iff]; constructor
      · rintro rfl; exact ⟨by omega, rfl⟩
      · rintro ⟨-, rfl⟩; rfl
    · rename_i h1; constructor
      · intro h; cases h
      · rintro ⟨h2, -⟩; omega

theorem lock_iff (v l : Int) : outputLock (.int v) = .ok l ↔ 0 ≤ v ∧ l = v := by
  simp only [outputLock]
  split
  · simp; omega
  · simp only [Except.ok.injEq, eq_comm]; omega

/-- **C127** (conditions). A JSON value is read as a condition exactly when it says so; it is then this condition and no other. -/
theorem C127_condition (H : Bytes → Bytes) (j : Json) (c : Condition) : Condition.fromJson H j = .ok c ↔ SaysCondition H j c := by
  unfold Condition.fromJson
  rw [bind_iff]
  constructor
  · rintro ⟨o, ho, h⟩
    split at h
    · unfold atomicSwapOfJson at h
      simp only [bind_iff, pure_iff, idx_iff, addressJson_iff, swapParty_iff, secretHash_iff, toInt_iff, swapLock_iff] at h
      obtain ⟨d, hd, s, hs, _, hsu, su, ⟨hst, rfl⟩, r, hr, _, hru, ru, ⟨hrt, rfl⟩, x, hx, b, hb, t, ht, _, hi, i, ⟨hil, rfl⟩, rfl⟩ := h
      exact .swap d s r x t su ru b i ((condType_iff _ _).1 ho) ((condData_iff _ _).1 hd) hs hsu hst hr hru hrt hx hb ht hi hil
    · unfold lockTimeOfJson at h
      simp only [bind_iff, pure_iff, idx_iff, toInt_iff, lock_iff, bare_iff] at h
      obtain ⟨d, hd, l, hl, _, hi, i, ⟨hil, rfl⟩, x, hx, c', ⟨xd, hc⟩, rfl⟩ := h
      exact .lock d l x xd i c' ((condType_iff _ _).1 ho) ((condData_iff _ _).1 hd) hl hi hil hx hc
    · obtain ⟨d, hd⟩ := (bare_iff _ _ _).1 h
      exact .bare d c hd
  · intro h
    cases h with
    | bare d c hd =>
      have hk : ∃ n, KindIs j n ∧ n ≠ 2 ∧ n ≠ 3 := by
        cases hd with
        | nil h => exact ⟨0, h, by decide, by decide⟩
        | wallet _ _ h => exact ⟨1, h, by decide, by decide⟩
        | multi _ _ _ _ _ h => exact ⟨4, h, by decide, by decide⟩
      obtain ⟨n, hk, h2, h3⟩ := hk
      refine ⟨some n, (condType_iff _ _).2 hk, ?_⟩
      split
      · rename_i e; exact absurd (Option.some.inj e) h2
      · rename_i e; exact absurd (Option.some.inj e) h3
      · exact (bare_iff _ _ _).2 ⟨d, hd⟩
    | swap d s r x t su ru b i hk hd hs hsu hst hr hru hrt hx hb ht hi hil =>
      refine ⟨some 2, (condType_iff _ _).2 hk, ?_⟩
      unfold atomicSwapOfJson
      simp only [bind_iff, pure_iff, idx_iff, addressJson_iff, swapParty_iff, secretHash_iff, toInt_iff, swapLock_iff]
      exact ⟨d, (condData_iff _ _).2 hd, s, hs, su, hsu, _, ⟨hst, rfl⟩, r, hr, ru, hru, _, ⟨hrt, rfl⟩, x, hx, b, hb, t, ht, i, hi, _, ⟨hil, rfl⟩, rfl⟩
    | lock d l x xd i c' hk hd hl hi hil hx hc =>
      refine ⟨some 3, (condType_iff _ _).2 hk, ?_⟩
      unfold lockTimeOfJson
      simp only [bind_iff, pure_iff, idx_iff, toInt_iff, lock_iff, bare_iff]
      exact ⟨d, (condData_iff _ _).2 hd, l, hl, i, hi, _, ⟨hil, rfl⟩, x, hx, c', ⟨xd, hc⟩, rfl⟩
/-- The JSON of a swap. -/
def swapJson (hashedSecret : Json) (lock : Int) : Json :=
  .obj [("type", .int 2), ("data", .obj [("sender", .str nilText), ("receiver", .str nilText), ("hashedsecret", hashedSecret), ("timelock", .int lock)])]
/-- Numbers may be given as texts, and the same address any number of times. -/
example : SaysCondition toyHash (.obj [("type", .int 4), ("data", .obj [("minimumsignaturecount", .str ['+', '2']), ("unlockhashes", .arr [.str nilText, .str nilText])])])
    (.multiSig [⟨0, ⟨List.replicate 32 0⟩⟩, ⟨0, ⟨List.replicate 32 0⟩⟩] 2) :=
  (C127_condition _ _ _).1 (by decide +kernel)
/-- A swap of which the secret is not known, and a locked condition. -/
example : SaysCondition toyHash (swapJson .null 1500000000) (.atomicSwap ⟨0, ⟨List.replicate 32 0⟩⟩ ⟨0, ⟨List.replicate 32 0⟩⟩ (some []) 1500000000) ∧
    SaysCondition toyHash (.obj [("type", .int 3), ("data", .obj [("locktime", .int 7), ("condition", .obj [])])]) (.lockTime 7 .nil) :=
  ⟨(C127_condition _ _ _).1 (by decide +kernel), (C127_condition _ _ _).1 (by decide +kernel)⟩
/-- A secret hash of the wrong size, a time lock below 500 million, a nil condition with a description and a swap under a lock are refused. -/
example (c : Condition) : ¬ SaysCondition toyHash (swapJson (.str ['a', 'b']) 1500000000) c ∧ ¬ SaysCondition toyHash (swapJson .null 499999999) c ∧
    ¬ SaysCondition toyHash (.obj [("data", .obj [("x", .null)])]) c ∧
    ¬ SaysCondition toyHash (.obj [("type", .int 3), ("data", .obj [("locktime", .int 7), ("condition", swapJson .null 1500000000)])]) c :=
  ⟨fun h => refused (by decide +kernel) c ((C127_condition _ _ _).2 h), fun h => refused (by decide +kernel) c ((C127_condition _ _ _).2 h),
    fun h => refused (by decide +kernel) c ((C127_condition _ _ _).2 h), fun h => refused (by decide +kernel) c ((C127_condition _ _ _).2 h)⟩

theorem secret_iff (j : Json) (b : Bytes) : secretOfJson j = .ok b ↔ InText (SizedText 32) j b := by
  unfold InText secretOfJson
  cases j with
  | str s =>
    simp only [bind_iff, pure_iff, Json.str.injEq, exists_eq_left']
    exact sized_iff 32 (by decide) s b
  | _ => simp

theorem keySig_iff (j : Json) (p : KeySig) : KeySig.fromJson j = .ok p ↔ SaysSigned j p.key p.sig := by
  unfold KeySig.fromJson SaysSigned
  simp only [bind_iff, pure_iff, idx_iff, keyJson_iff, signature_iff]
  constructor
  · rintro ⟨kj, h1, k, h2, sj, h3, s, h4, rfl⟩; exact ⟨kj, sj, h1, h2, h3, h4⟩
  · rintro ⟨kj, sj, h1, h2, h3, h4⟩; exact ⟨kj, h1, p.key, h2, sj, h3, p.sig, h4, rfl⟩

theorem single_iff (d : Json) (f : Fulfillment) : singleOfJson d = .ok f ↔ ∃ k s, SaysSigned d k s ∧ f = .single k (some s) := by
  unfold singleOfJson SaysSigned
  simp only [bind_iff, pure_iff, idx_iff, keyJson_iff, signature_iff]
  constructor
  · rintro ⟨kj, h1, k, h2, sj, h3, s, h4, rfl⟩; exact ⟨k, s, ⟨kj, sj, h1, h2, h3, h4⟩, rfl⟩
  · rintro ⟨k, s, ⟨kj, sj, h1, h2, h3, h4⟩, rfl⟩; exact ⟨kj, h1, k, h2, sj, h3, s, h4, rfl⟩

theorem swapData_iff (d : Json) (f : Fulfillment) : swapOfJson d = .ok f ↔
    ∃ k s o, SaysSigned d k s ∧ Maybe d "secret" (InText (SizedText 32)) o ∧ f = .swap k (some s) o := by
  unfold swapOfJson SaysSigned
  simp only [bind_iff, idx_iff, keyJson_iff, signature_iff]
  constructor
  · rintro ⟨kj, h1, k, h2, sj, h3, s, h4, h⟩
    split at h
    · rename_i l
      split at h
      · rename_i e; cases h
        exact ⟨k, s, none, ⟨kj, sj, h1, h2, h3, h4⟩, .inl ⟨.inl ⟨l, rfl, e⟩, rfl⟩, rfl⟩
      · rename_i x e
        obtain ⟨b, hb, h⟩ := bind_ok h
        cases h
        exact ⟨k, s, some b, ⟨kj, sj, h1, h2, h3, h4⟩, .inr ⟨x, b, ⟨l, rfl, e⟩, (secret_iff _ _).1 hb, rfl⟩, rfl⟩
    · cases h
  · rintro ⟨k, s, o, ⟨kj, sj, h1, h2, h3, h4⟩, ho, rfl⟩
    refine ⟨kj, h1, k, h2, sj, h3, s, h4, ?_⟩
    obtain ⟨l, rfl, -⟩ := h1
    dsimp only
    rcases ho with ⟨h | ⟨_, h, -⟩ | ⟨_, h, -⟩, rfl⟩ | ⟨v, b, h, hb, rfl⟩
    · obtain ⟨l', e, h⟩ := h; cases e; rw [h]; rfl
    · cases h
    · cases h
    · obtain ⟨l', e, h⟩ := h; cases e; rw [h]
      dsimp only
      rw [(secret_iff _ _).2 hb]; rfl

/-- **C127** (fulfillments). A JSON value is read as a fulfillment exactly when it says so; it is then this fulfillment and no other. -/
theorem C127_fulfillment (j : Json) (f : Fulfillment) : Fulfillment.fromJson j = .ok f ↔ SaysFulfillment j f := by
  unfold Fulfillment.fromJson
  rw [bind_iff]
  constructor
  · rintro ⟨o, ho, h⟩
    split at h
    · obtain ⟨d, hd, h⟩ := bind_ok h
      obtain ⟨k, s, h', rfl⟩ := (single_iff _ _).1 h
      exact .single d k s ((condType_iff _ _).1 ho) ((condData_iff _ _).1 hd) h'
    · obtain ⟨d, hd, h⟩ := bind_ok h
      unfold multiOfJson at h
      simp only [bind_iff, pure_iff, idx_iff, iter_iff, mapM_iff keySig_iff] at h
      obtain ⟨v, hv, xs, hx, ps, hp, rfl⟩ := h
      exact .multi d v xs ps ((condType_iff _ _).1 ho) ((condData_iff _ _).1 hd) hv hx hp
    · obtain ⟨d, hd, h⟩ := bind_ok h
      obtain ⟨k, s, o, h', ho', rfl⟩ := (swapData_iff _ _).1 h
      exact .swap d k s o ((condType_iff _ _).1 ho) ((condData_iff _ _).1 hd) h' ho'
    · cases h
  · intro h
    cases h with
    | single d k s hk hd h =>
      refine ⟨some 1, (condType_iff _ _).2 hk, ?_⟩
      exact bind_iff.2 ⟨d, (condData_iff _ _).2 hd, (single_iff _ _).2 ⟨k, s, h, rfl⟩⟩
    | multi d v xs ps hk hd hv hx hp =>
      refine ⟨some 3, (condType_iff _ _).2 hk, ?_⟩
      refine bind_iff.2 ⟨d, (condData_iff _ _).2 hd, ?_⟩
      unfold multiOfJson
      simp only [bind_iff, pure_iff, idx_iff, iter_iff, mapM_iff keySig_iff]
      exact ⟨v, hv, xs, hx, ps, hp, rfl⟩
    | swap d k s o hk hd h ho =>
      refine ⟨some 2, (condType_iff _ _).2 hk, ?_⟩
      exact bind_iff.2 ⟨d, (condData_iff _ _).2 hd, (swapData_iff _ _).2 ⟨k, s, o, h, ho, rfl⟩⟩
/-- The JSON of a key and its signature. -/
def signedJson (sig : Json) : List (String × Json) := [("publickey", .str ("ed25519:".toList ++ toHex (List.replicate 32 7))), ("signature", sig)]
/-- Signatures of several owners, one of them missing; a swap without its secret. -/
example : SaysFulfillment (.obj [("type", .int 3), ("data", .obj [("pairs", .arr [.obj (signedJson (.str (toHex (List.replicate 64 1)))), .obj (signedJson .null)])])])
      (.multi [⟨⟨.ed25519, ⟨List.replicate 32 7⟩⟩, ⟨List.replicate 64 1, false⟩⟩, ⟨⟨.ed25519, ⟨List.replicate 32 7⟩⟩, ⟨[], false⟩⟩]) ∧
    SaysFulfillment (.obj [("type", .int 2), ("data", .obj (signedJson .null))]) (.swap ⟨.ed25519, ⟨List.replicate 32 7⟩⟩ (some ⟨[], false⟩) none) :=
  ⟨(C127_fulfillment _ _).1 (by decide +kernel), (C127_fulfillment _ _).1 (by decide +kernel)⟩
/-- A signature of 63 bytes and a fulfillment without its kind are refused. -/
example (f : Fulfillment) : ¬ SaysFulfillment (.obj [("type", .int 1), ("data", .obj (signedJson (.str (toHex (List.replicate 63 1)))))]) f ∧
    ¬ SaysFulfillment (.obj [("data", .obj (signedJson .null))]) f :=
  ⟨fun h => refused (by decide +kernel) f ((C127_fulfillment _ _).2 h), fun h => refused (by decide +kernel) f ((C127_fulfillment _ _).2 h)⟩

/-! ## Inputs and outputs -/

theorem money_iff (j : Json) (c : Currency) : currencyOfJson j = .ok c ↔ SaysMoney j c := by
  unfold SaysMoney
  cases j <;> simp [currencyOfJson]

theorem money_good {j : Json} {c : Currency} (h : SaysMoney j c) : GoodCurrency c := by
  obtain ⟨s, -, h⟩ := h
  unfold Currency.fromJson at h
  split at h
  · cases h
  split at h
  · cases h
  · split at h <;> cases h
  · exact currency_set_good (fun _ h => by cases h) h

theorem stakes_iff (j : Json) (b : Blockstake) : stakeOfJson j = .ok b ↔ SaysStakes j b := by
  have hb : ∀ n : Nat, b = ⟨n⟩ ↔ b.value = n := fun n => ⟨fun h => by rw [h], fun h => by rw [← h]⟩
  unfold SaysStakes
  cases j with
  | null => simp [stakeOfJson, Blockstake.set, ← hb, eq_comm]
  | str s =>
    simp only [stakeOfJson, Blockstake.fromJson]
    by_cases e : s = []
    · subst e; simp [Blockstake.set, ← hb, eq_comm]
    · rw [if_neg e]
      have := (C20_text s).1 b.value
      simp only [reduceCtorEq, Json.str.injEq, e, or_self, false_and, false_or]
      constructor
      · intro h; exact ⟨s, e, rfl, this.1 h⟩
      · rintro ⟨s', -, rfl, h⟩; exact this.2 h
  | _ => simp [stakeOfJson]

theorem data_iff (j : Json) (b : Bytes) : base64OfJson j = .ok b ↔ SaysData j b := by
  have e : SaysData j b ↔ (j = .null ∧ b = [] ∨ ∃ s, j = .str s ∧ fromB64 s = some b) := by unfold SaysData; simp only [C127_base64]
  rw [e]
  cases j with
  | null => simp [base64OfJson, eq_comm]
  | str s =>
    simp only [base64OfJson, bind_iff, pure_iff, BinData.fromJson, reduceCtorEq, false_and, Json.str.injEq, exists_eq_left', false_or]
    by_cases e : s = []
    · subst e
      rw [if_pos rfl, show fromB64 [] = some [] from rfl]
      constructor
      · rintro ⟨d, h, rfl⟩; cases h; rfl
      · intro h; cases h; exact ⟨_, rfl, rfl⟩
    · rw [if_neg e]
      simp only [BinData.new, BinData.set, BVal.norm, StrEnc.fromStr, bind_iff, pure_iff]
      cases fromB64 s with
      | none => simp
      | some x =>
        simp only [Except.ok.injEq, exists_eq_left', Option.some.injEq]
  | _ => simp [base64OfJson]

/-- **C127** (coin inputs). -/
theorem C127_input (j : Json) (ci : CoinInput) : CoinInput.fromJson j = .ok ci ↔ SaysInput j ci := by
  unfold CoinInput.fromJson SaysInput
  simp only [bind_iff, pure_iff, idx_iff, hashOf_iff, C127_fulfillment]
  constructor
  · rintro ⟨p, h1, h, h2, f, h3, g, h4, rfl⟩; exact ⟨p, f, h1, h2, h3, h4, rfl⟩
  · rintro ⟨p, f, h1, h2, h3, h4, h5⟩; exact ⟨p, h1, ci.parentId, h2, f, h3, ci.fulfillment, h4, by rw [← h5]⟩
/-- The JSON of an input. -/
def inputJson : Json := .obj [("parentid", .str (toHex (List.replicate 32 5))), ("fulfillment", .obj [("type", .int 1), ("data", .obj (signedJson .null))])]
/-- An input that is not signed; the JSON of an output is none of an input. -/
example : SaysInput inputJson ⟨⟨List.replicate 32 5⟩, .single ⟨.ed25519, ⟨List.replicate 32 7⟩⟩ (some ⟨[], false⟩), none⟩ ∧
    ∀ ci, ¬ SaysInput (.obj [("value", .str ['5']), ("condition", .obj [])]) ci :=
  ⟨(C127_input _ _).1 (by decide +kernel), fun ci h => refused (by decide +kernel) ci ((C127_input _ _).2 h)⟩

/-- **C127** (coin outputs). -/
theorem C127_output (H : Bytes → Bytes) (j : Json) (co : CoinOutput) : CoinOutput.fromJson H j = .ok co ↔ SaysOutput H j co := by
  unfold CoinOutput.fromJson SaysOutput
  simp only [bind_iff, pure_iff, idx_iff, money_iff, C127_condition]
  constructor
  · rintro ⟨v, h1, m, h2, c, h3, g, h4, rfl⟩; exact ⟨v, c, h1, h2, h3, h4, rfl⟩
  · rintro ⟨v, c, h1, h2, h3, h4, h5⟩; exact ⟨v, h1, co.value, h2, c, h3, co.condition, h4, by rw [← h5]⟩
/-- Five units for nobody in particular; a negative amount is refused. -/
example : SaysOutput toyHash (.obj [("value", .str ['5']), ("condition", .obj [])]) ⟨⟨some ⟨false, 5, -9⟩⟩, .nil, ⟨[]⟩⟩ ∧
    ∀ co, ¬ SaysOutput toyHash (.obj [("value", .str ['-', '5']), ("condition", .obj [])]) co :=
  ⟨(C127_output _ _ _).1 (by decide +kernel), fun co h => refused (by decide +kernel) co ((C127_output _ _ _).2 h)⟩

/-- **C127** (block stake inputs). -/
theorem C127_stake_input (j : Json) (bi : StakeInput) : StakeInput.fromJson j = .ok bi ↔ SaysStakeInput j bi := by
  unfold StakeInput.fromJson SaysStakeInput
  simp only [bind_iff, pure_iff, idx_iff, hashOf_iff, C127_fulfillment]
  constructor
  · rintro ⟨p, h1, h, h2, f, h3, g, h4, rfl⟩; exact ⟨p, f, h1, h2, h3, h4, rfl⟩
  · rintro ⟨p, f, h1, h2, h3, h4, h5⟩; exact ⟨p, h1, bi.parentId, h2, f, h3, bi.fulfillment, h4, by rw [← h5]⟩
example : SaysStakeInput inputJson ⟨⟨List.replicate 32 5⟩, .single ⟨.ed25519, ⟨List.replicate 32 7⟩⟩ (some ⟨[], false⟩), .default⟩ ∧ ∀ bi, ¬ SaysStakeInput (.obj []) bi :=
  ⟨(C127_stake_input _ _).1 (by decide +kernel), fun bi h => refused (by decide +kernel) bi ((C127_stake_input _ _).2 h)⟩

/-- **C127** (block stake outputs). -/
theorem C127_stake_output (H : Bytes → Bytes) (j : Json) (o : StakeOutput) : StakeOutput.fromJson H j = .ok o ↔ SaysStakeOutput H j o := by
  unfold StakeOutput.fromJson SaysStakeOutput
  simp only [bind_iff, pure_iff, idx_iff, stakes_iff, C127_condition]
  constructor
  · rintro ⟨v, h1, m, h2, c, h3, g, h4, rfl⟩; exact ⟨v, c, h1, h2, h3, h4, rfl⟩
  · rintro ⟨v, c, h1, h2, h3, h4, h5⟩; exact ⟨v, h1, o.value, h2, c, h3, o.condition, h4, by rw [← h5]⟩
/-- Three block stakes; half a block stake is refused. -/
example : SaysStakeOutput toyHash (.obj [("value", .str ['3']), ("condition", .obj [])]) ⟨⟨3⟩, .nil, ⟨[]⟩⟩ ∧
    ∀ o, ¬ SaysStakeOutput toyHash (.obj [("value", .str ['0', '.', '5']), ("condition", .obj [])]) o :=
  ⟨(C127_stake_output _ _ _).1 (by decide +kernel), fun o h => refused (by decide +kernel) o ((C127_stake_output _ _ _).2 h)⟩

/-! ## Transactions -/

/-- Reading the list under a key and going on. -/
theorem list_bind {α β : Type} {f : Json → Res α} {R : Json → α → Prop} (hf : ∀ x y, f x = .ok y ↔ R x y) (d : Json) (k : String) (g : List α → Res β) (b : β) :
    (d.listField k >>= fun xs => xs.mapM f >>= g) = .ok b ↔ ∃ l, ListIs d k R l ∧ g l = .ok b := by
  simp only [bind_iff, ← listField_iff hf]
  constructor
  · rintro ⟨xs, h1, l, h2, h3⟩; exact ⟨l, ⟨xs, h1, h2⟩, h3⟩
  · rintro ⟨l, ⟨xs, h1, h2⟩, h3⟩; exact ⟨xs, h1, l, h2, h3⟩

/-- Reading a value under a key and going on. -/
theorem filled_bind {α β : Type} {f : Json → Res α} {R : Json → α → Prop} (hf : ∀ x y, f x = .ok y ↔ R x y) (d : Json) (k : String) (dflt : Json) (g : α → Res β) (b : β) :
    (d.orDefault k dflt >>= fun x => f x >>= g) = .ok b ↔ ∃ a, (∃ v, Filled d k dflt v ∧ R v a) ∧ g a = .ok b := by
  simp only [bind_iff, orDefault_iff, hf]
  constructor
  · rintro ⟨v, h1, a, h2, h3⟩; exact ⟨a, ⟨v, h1, h2⟩, h3⟩
  · rintro ⟨a, ⟨v, h1, h2⟩, h3⟩; exact ⟨v, h1, a, h2, h3⟩

@[inherit_doc filled_bind]
theorem field_bind {α β : Type} {f : Json → Res α} {R : Json → α → Prop} (hf : ∀ x y, f x = .ok y ↔ R x y) (d : Json) (k : String) (dflt : Json) (g : α → Res β) (b : β) :
    (d.getD k dflt >>= fun x => f x >>= g) = .ok b ↔ ∃ a, (∃ v, FieldOr d k dflt v ∧ R v a) ∧ g a = .ok b := by
  simp only [bind_iff, getD_iff, hf]
  constructor
  · rintro ⟨v, h1, a, h2, h3⟩; exact ⟨a, ⟨v, h1, h2⟩, h3⟩
  · rintro ⟨a, ⟨v, h1, h2⟩, h3⟩; exact ⟨v, h1, a, h2, h3⟩

@[inherit_doc filled_bind]
theorem opt_bind {α β : Type} {f : Json → Res α} {R : Json → α → Prop} (hf : ∀ x y, f x = .ok y ↔ R x y) (d : Json) (k : String) (g : Option α → Res β) (b : β) :
    (optField d k f >>= g) = .ok b ↔ ∃ o, Maybe d k R o ∧ g o = .ok b := by
  simp only [bind_iff, optField_iff hf]

@[inherit_doc filled_bind]
theorem int_bind {β : Type} (d : Json) (k : String) (g : Int → Res β) (b : β) : (intField d k >>= g) = .ok b ↔ ∃ i, Number d k i ∧ g i = .ok b := by
  simp only [bind_iff, intField_iff]

@[inherit_doc filled_bind]
theorem part_bind {β : Type} (d : Json) (k : String) (dflt : Json) (g : Json → Res β) (b : β) :
    (d.orDefault k dflt >>= g) = .ok b ↔ ∃ v, Filled d k dflt v ∧ g v = .ok b := by
  simp only [bind_iff, orDefault_iff]

@[inherit_doc filled_bind]
theorem getD_bind {β : Type} (d : Json) (k : String) (dflt : Json) (g : Json → Res β) (b : β) :
    (d.getD k dflt >>= g) = .ok b ↔ ∃ v, FieldOr d k dflt v ∧ g v = .ok b := by
  simp only [bind_iff, getD_iff]

@[inherit_doc filled_bind]
theorem sig_bind {β : Type} (j : Json) (a : Bool) (g : Signature → Res β) (b : β) :
    (Signature.fromJson j a >>= g) = .ok b ↔ ∃ s, SaysSignature a j s ∧ g s = .ok b := by
  simp only [bind_iff, signature_iff]

theorem v1_iff (H : Bytes → Bytes) (d : Json) (t : TxV1) : TxV1.ofJson H d = .ok t ↔ SaysV1 H d t := by
  unfold TxV1.ofJson
  simp only [list_bind C127_input, list_bind (C127_output H), list_bind C127_stake_input, list_bind (C127_stake_output H), list_bind money_iff, filled_bind data_iff, pure_iff]
  constructor
  · rintro ⟨ci, h1, co, h2, si, h3, so, h4, mf, h5, ad, h6, rfl⟩
    exact ⟨h1, h2, h3, h4, h5, h6, rfl⟩
  · rintro ⟨h1, h2, h3, h4, h5, h6, h7⟩
    exact ⟨_, h1, _, h2, _, h3, _, h4, _, h5, _, h6, by rw [← h7]⟩

theorem v128_iff (H : Bytes → Bytes) (d : Json) (t : TxV128) : TxV128.ofJson H d = .ok t ↔ SaysV128 H d t := by
  unfold TxV128.ofJson
  simp only [field_bind data_iff, field_bind (C127_condition H), field_bind C127_fulfillment, list_bind money_iff, filled_bind data_iff, pure_iff]
  constructor
  · rintro ⟨n, h1, c, h2, f, ⟨v, h3, h4⟩, mf, h5, ad, h6, rfl⟩
    exact ⟨h1, h2, ⟨v, f, h3, h4, rfl⟩, h5, h6, rfl⟩
  · rintro ⟨h1, h2, ⟨v, f, h3, h4, h7⟩, h5, h6, h8⟩
    exact ⟨_, h1, _, h2, f, ⟨v, h3, h4⟩, _, h5, _, h6, by rw [← h7, ← h8]⟩

theorem v129_iff (H : Bytes → Bytes) (d : Json) (t : TxV129) : TxV129.ofJson H d = .ok t ↔ SaysV129 H d t := by
  unfold TxV129.ofJson
  simp only [field_bind data_iff, list_bind (C127_output H), field_bind C127_fulfillment, list_bind money_iff, filled_bind data_iff, pure_iff]
  constructor
  · rintro ⟨n, h1, f, ⟨v, h3, h4⟩, co, h2, mf, h5, ad, h6, rfl⟩
    exact ⟨h1, ⟨v, f, h3, h4, rfl⟩, h2, h5, h6, rfl⟩
  · rintro ⟨h1, ⟨v, f, h3, h4, h7⟩, h2, h5, h6, h8⟩
    exact ⟨_, h1, f, ⟨v, h3, h4⟩, _, h2, _, h5, _, h6, by rw [← h7, ← h8]⟩

theorem net_iff (L : IpLib) (x : Json) (a : NetAddr) : NetAddr.fromJson L x = .ok a ↔ SaysNet L x a := by
  unfold SaysNet
  cases x with
  | null => simp [NetAddr.fromJson, NetAddr.new, eq_comm]
  | str s =>
    simp only [NetAddr.fromJson, reduceCtorEq, false_or, Json.str.injEq]
    by_cases h : s = []
    · subst h; simp [NetAddr.new, eq_comm]
    · rw [if_neg h, C128_texts_partial]
      simp only [h, false_and, false_or]
      constructor
      · rintro (h' | ⟨h1, h2, h3⟩)
        · exact ⟨s, h, rfl, .inl h'⟩
        · exact ⟨s, h, rfl, .inr ⟨fun x => x.elim h1 h2, h3⟩⟩
      · rintro ⟨t, ht, rfl, h' | ⟨h1, h2⟩⟩
        · exact .inl h'
        · exact .inr ⟨fun x => h1 (.inl x), fun x => h1 (.inr x), h2⟩
  | _ => simp [NetAddr.fromJson]

theorem name_iff (x : Json) (a : BotName) : BotName.fromJson x = .ok a ↔ SaysName x a := by
  unfold SaysName OrLine
  cases x with
  | null => simp [BotName.fromJson, BotName.new, eq_comm]
  | str s =>
    simp only [BotName.fromJson, reduceCtorEq, false_or, Json.str.injEq]
    by_cases h : s = []
    · subst h
      rw [if_pos rfl, show BotName.new .none = .ok ⟨[]⟩ from rfl]
      constructor
      · intro e; exact .inl ⟨rfl, (Except.ok.inj e).symm⟩
      · rintro (⟨-, rfl⟩ | ⟨s, hs, e, -⟩)
        · rfl
        · exact absurd e.symm hs
    · rw [if_neg h]
      obtain ⟨h1, h2⟩ := C67_bot_name_partial s
      simp only [h, false_and, false_or]
      have hn : BotName.new (.str s) = .ok a ↔ (∃ n, BotName.new (.str s) = .ok n) ∧ a = ⟨s⟩ := by
        constructor
        · intro e
          have := h1 a e
          exact ⟨⟨a, e⟩, by rw [← this]⟩
        · rintro ⟨⟨n, e⟩, rfl⟩
          have := h1 n e
          rw [e, ← this]
      rw [hn, h2]
      constructor
      · rintro ⟨g | ⟨t, ht, hl, g⟩, rfl⟩
        · exact ⟨s, h, rfl, .inl g, g.1, rfl⟩
        · exact ⟨s, h, rfl, .inr ⟨t, ht, g⟩, hl, rfl⟩
      · rintro ⟨_, -, rfl, g | ⟨t, ht, g⟩, hl, rfl⟩
        · exact ⟨.inl g, rfl⟩
        · exact ⟨.inr ⟨t, ht, hl, g⟩, rfl⟩
  | _ => simp [BotName.fromJson]

theorem nullOrEmpty_iff (v : Json) : v.isNullOrEmpty = true ↔ v = .null ∨ v = .obj [] := by
  unfold Json.isNullOrEmpty
  split
  · simp
  · simp
  · rename_i h1 h2
    simp only [Bool.false_eq_true, false_iff, not_or]
    exact ⟨h1, h2⟩

theorem v144_iff (L : IpLib) (H : Bytes → Bytes) (d : Json) (t : TxV144) : TxV144.ofJson L H d = .ok t ↔ SaysV144 L H d t := by
  unfold TxV144.ofJson
  simp only [list_bind (net_iff L), list_bind name_iff, list_bind C127_input, int_bind, opt_bind money_iff, opt_bind (C127_output H), getD_bind]
  constructor
  · rintro ⟨ad, h1, nm, h2, m, h3, fee, h4, ci, h5, r, h6, v, h7, h⟩
    by_cases e : v.isNullOrEmpty = true
    · rw [if_pos e] at h; cases h
      exact ⟨h1, h2, h3, h4, h5, h6, v, h7, .inl ⟨(nullOrEmpty_iff v).1 e, rfl, rfl⟩⟩
    · rw [if_neg e] at h
      simp only [bind_iff, idx_iff, keyJson_iff, signature_iff, pure_iff] at h
      obtain ⟨kj, g1, k, g2, sj, g3, s, g4, rfl⟩ := h
      exact ⟨h1, h2, h3, h4, h5, h6, v, h7, .inr ⟨kj, k, sj, s, g1, g2, g3, g4, rfl, rfl⟩⟩
  · rintro ⟨h1, h2, h3, h4, h5, h6, v, h7, h⟩
    refine ⟨_, h1, _, h2, _, h3, _, h4, _, h5, _, h6, v, h7, ?_⟩
    rcases h with ⟨e, g1, g2⟩ | ⟨kj, k, sj, s, g1, g2, g3, g4, g5, g6⟩
    · rw [if_pos ((nullOrEmpty_iff v).2 e), pure_iff, ← g1, ← g2]
    · rw [if_neg]
      · simp only [bind_iff, idx_iff, keyJson_iff, signature_iff, pure_iff]
        exact ⟨kj, g1, k, g2, sj, g3, s, g4, by rw [← g5, ← g6]⟩
      · rw [nullOrEmpty_iff]
        obtain ⟨l, rfl, g1⟩ := g1
        rintro (e | e)
        · cases e
        · cases e; cases g1

theorem v145_iff (L : IpLib) (H : Bytes → Bytes) (d : Json) (t : TxV145) : TxV145.ofJson L H d = .ok t ↔ SaysV145 L H d t := by
  unfold TxV145.ofJson
  simp only [list_bind (net_iff L), list_bind name_iff, list_bind C127_input, int_bind, opt_bind money_iff, opt_bind (C127_output H), part_bind, sig_bind, pure_iff]
  constructor
  · rintro ⟨i, h1, a, h2, aa, h3, ar, h4, n, h5, na, h6, nr, h7, m, h8, fee, h9, ci, h10, r, h11, v, h12, s, h13, rfl⟩
    exact ⟨⟨i, h1, rfl⟩, ⟨a, h2, h3, h4⟩, ⟨n, h5, h6, h7⟩, h8, h9, h10, h11, ⟨v, s, h12, h13, rfl⟩, rfl⟩
  · rintro ⟨⟨i, h1, e1⟩, ⟨a, h2, h3, h4⟩, ⟨n, h5, h6, h7⟩, h8, h9, h10, h11, ⟨v, s, h12, h13, e2⟩, e3⟩
    exact ⟨i, h1, a, h2, _, h3, _, h4, n, h5, _, h6, _, h7, _, h8, _, h9, _, h10, _, h11, v, h12, s, h13, by rw [← e1, ← e2, ← e3]⟩

theorem party_iff (j : Json) (x : Int × Signature) : partyOfJson j = .ok x ↔ SaysParty j x := by
  unfold partyOfJson SaysParty
  simp only [int_bind, part_bind, sig_bind, pure_iff]
  constructor
  · rintro ⟨i, h1, v, h2, s, h3, rfl⟩; exact ⟨h1, v, h2, h3⟩
  · rintro ⟨h1, v, h2, h3⟩; exact ⟨_, h1, v, h2, _, h3, rfl⟩

theorem v146_iff (H : Bytes → Bytes) (d : Json) (t : TxV146) : TxV146.ofJson H d = .ok t ↔ SaysV146 H d t := by
  unfold TxV146.ofJson
  simp only [list_bind name_iff, list_bind C127_input, opt_bind party_iff, opt_bind money_iff, opt_bind (C127_output H), pure_iff]
  constructor
  · rintro ⟨s, h1, r, h2, nm, h3, fee, h4, ci, h5, ref, h6, rfl⟩
    exact ⟨⟨s, h1, rfl, rfl⟩, ⟨r, h2, rfl, rfl⟩, h3, h4, ⟨ci, h5, rfl⟩, h6, rfl, rfl⟩
  · rintro ⟨⟨s, h1, e1, e2⟩, ⟨r, h2, e3, e4⟩, h3, h4, ⟨ci, h5, e5⟩, h6, e6, e7⟩
    exact ⟨s, h1, r, h2, _, h3, _, h4, ci, h5, _, h6, by rw [← e1, ← e2, ← e3, ← e4, ← e5]; cases t; subst e6; subst e7; rfl⟩

theorem prefixed_iff (n : Nat) (hn : n ≠ 0) (j : Json) (b : Bytes) : erc20FromJson n j = .ok b ↔ InTextOrNull (PrefixedText n) j b := by
  have hnone : erc20New n .none = .ok b ↔ b = [] := by
    unfold erc20New
    simp only [bind_iff, pure_iff, newNone_iff n hn, exists_eq_left]
    exact eq_comm
  have hp : ∀ s : Str, PrefixedText n s b ↔ SizedText n (if s.take 2 = ['0', 'x'] ∨ s.take 2 = ['0', 'X'] then s.drop 2 else s) b := by
    intro s
    constructor
    · rintro ⟨pre, hex, rfl, rfl | rfl | ⟨rfl, h1, h2⟩, h⟩
      · simpa using h
      · simpa using h
      · rw [List.nil_append, if_neg (by simp [h1, h2])]; exact h
    · intro h
      split at h
      · rename_i e
        exact ⟨s.take 2, s.drop 2, (List.take_append_drop 2 s).symm, by rcases e with e | e <;> simp [e], h⟩
      · rename_i e
        rw [not_or] at e
        exact ⟨[], s, rfl, .inr (.inr ⟨rfl, e.1, e.2⟩), h⟩
  have he : PrefixedText n [] b ↔ b = [] := by rw [hp]; simp [sized_empty]
  unfold InTextOrNull InText
  cases j with
  | null => simp [erc20FromJson, hnone, he]
  | str s =>
    simp only [erc20FromJson, reduceCtorEq, false_and, Json.str.injEq, exists_eq_left', false_or]
    by_cases e : s = []
    · subst e; rw [if_pos rfl, hnone, he]
    · rw [if_neg e, hp]
      unfold erc20New
      simp only [bind_iff, pure_iff, newStr_iff n hn, StrEnc.fromStr, hexText_iff, SizedText]
      constructor
      · rintro ⟨d, ⟨b', h1, h2, rfl⟩, rfl⟩; exact ⟨h1, h2⟩
      · rintro ⟨h1, h2⟩; exact ⟨_, ⟨b, h1, h2, rfl⟩, rfl⟩
  | _ => simp [erc20FromJson]

theorem v208_iff (H : Bytes → Bytes) (d : Json) (t : TxV208) : TxV208.ofJson H d = .ok t ↔ SaysV208 H d t := by
  unfold TxV208.ofJson
  simp only [list_bind C127_input, opt_bind (prefixed_iff 20 (by decide)), opt_bind money_iff, opt_bind (C127_output H), pure_iff]
  constructor
  · rintro ⟨a, h1, v, h2, fee, h3, ci, h4, r, h5, rfl⟩; exact ⟨⟨a, h1, rfl⟩, ⟨v, h2, rfl⟩, h3, h4, h5⟩
  · rintro ⟨⟨a, h1, e1⟩, ⟨v, h2, e2⟩, h3, h4, h5⟩; exact ⟨a, h1, v, h2, _, h3, _, h4, _, h5, by rw [← e1, ← e2]⟩

theorem v209_iff (H : Bytes → Bytes) (d : Json) (t : TxV209) : TxV209.ofJson H d = .ok t ↔ SaysV209 H d t := by
  unfold TxV209.ofJson
  simp only [bind_iff, optField_iff (prefixed_iff 32 (by decide)), optField_iff money_iff, optField_iff (addressJson_iff H), pure_iff]
  constructor
  · rintro ⟨a, h1, v, h2, fee, h3, bl, h4, i, h5, rfl⟩; exact ⟨⟨a, h1, rfl⟩, ⟨v, h2, rfl⟩, h3, ⟨bl, h4, rfl⟩, ⟨i, h5, rfl⟩⟩
  · rintro ⟨⟨a, h1, e1⟩, ⟨v, h2, e2⟩, h3, ⟨bl, h4, e3⟩, ⟨i, h5, e4⟩⟩; exact ⟨a, h1, v, h2, _, h3, bl, h4, i, h5, by rw [← e1, ← e2, ← e3, ← e4]⟩

theorem regfee_iff (j : Json) : (∃ u, (do setRegistrationFee (← currencyOfJson j)) = .ok u) ↔ ∃ c, SaysMoney j c ∧ amount c = 10 * 10 ^ 9 := by
  have hr : GoodCurrency registrationFee := ⟨rfl, by decide⟩
  have ha : amount registrationFee = 10 * 10 ^ 9 := by decide +kernel
  simp only [bind_iff, money_iff]
  constructor
  · rintro ⟨u, c, hc, h⟩
    refine ⟨c, hc, ?_⟩
    unfold setRegistrationFee at h
    split at h
    · rename_i e; rw [← ha]; exact (eqv_amount (money_good hc) hr).1 e
    · cases h
  · rintro ⟨c, hc, h⟩
    refine ⟨(), c, hc, ?_⟩
    unfold setRegistrationFee
    rw [if_pos ((eqv_amount (money_good hc) hr).2 (by rw [h, ha]))]

theorem v210_iff (H : Bytes → Bytes) (d : Json) (t : TxV210) : TxV210.ofJson H d = .ok t ↔ SaysV210 H d t := by
  unfold TxV210.ofJson
  have hx : ∀ (g : Option Unit → Res TxV210) (b : TxV210), (optField d "regfee" (fun x => do setRegistrationFee (← currencyOfJson x)) >>= g) = .ok b ↔
      ∃ o, optField d "regfee" (fun x => do setRegistrationFee (← currencyOfJson x)) = .ok o ∧ g o = .ok b := fun _ _ => bind_iff
  simp only [list_bind C127_input, opt_bind keyJson_iff, opt_bind (fun j s => signature_iff j false s), opt_bind money_iff, opt_bind (C127_output H), hx, pure_iff]
  have hreg : (∃ o, optField d "regfee" (fun x => do setRegistrationFee (← currencyOfJson x)) = .ok o) ↔
      ∃ o, Maybe d "regfee" (fun j (c : Currency) => SaysMoney j c ∧ amount c = 10 * 10 ^ 9) o := by
    simp only [optField_iff (R := fun j u => (do setRegistrationFee (← currencyOfJson j)) = .ok u) (fun _ _ => Iff.rfl)]
    constructor
    · rintro ⟨o, ⟨h, rfl⟩ | ⟨v, u, hv, hu, rfl⟩⟩
      · exact ⟨none, .inl ⟨h, rfl⟩⟩
      · obtain ⟨c, hc⟩ := (regfee_iff v).1 ⟨u, hu⟩
        exact ⟨some c, .inr ⟨v, c, hv, hc, rfl⟩⟩
    · rintro ⟨o, ⟨h, rfl⟩ | ⟨v, c, hv, hc, rfl⟩⟩
      · exact ⟨none, .inl ⟨h, rfl⟩⟩
      · obtain ⟨u, hu⟩ := (regfee_iff v).2 ⟨c, hc⟩
        exact ⟨some u, .inr ⟨v, u, hv, hu, rfl⟩⟩
  constructor
  · rintro ⟨k, h1, s, h2, o, h3, fee, h4, ci, h5, r, h6, rfl⟩; exact ⟨h1, h2, hreg.1 ⟨o, h3⟩, h4, ⟨ci, h5, rfl⟩, h6⟩
  · rintro ⟨h1, h2, h3, h4, ⟨ci, h5, e⟩, h6⟩
    obtain ⟨o, h3⟩ := hreg.2 h3
    exact ⟨_, h1, _, h2, o, h3, _, h4, ci, h5, _, h6, by rw [← e]⟩

theorem owner_iff (H : Bytes → Bytes) (o : OwnerArg) (u : UnlockHash) : o.resolve H = .ok u ↔ OwnerIs H o u := by
  cases o with
  | none => constructor
            · intro h; cases h; exact .none
            · intro h; cases h; rfl
  | uh v => constructor
            · intro h; cases h; exact .address _
            · intro h; cases h; rfl
  | str s => rw [show OwnerArg.resolve H (.str s) = UnlockHash.fromStr H s from rfl, C127_address]
             constructor
             · intro h; exact .text _ _ h
             · intro h; cases h; assumption
  | other => constructor
             · intro h; cases h
             · intro h; cases h

/-- **C30** (all notations). Owners of a shared wallet are given as a list, which all of them have to sign for, or as a pair of a list and a number in either
order; a recipient given as bytes is the address these bytes spell. Every other combination is refused, but for a number and a zero, which is a wallet
without owners. -/
theorem C30_owners (H : Bytes → Bytes) (l l' : List OwnerArg) (b : Bytes) (i j : Int) (c : Condition) :
    (fromRecipient H (.list l) .none = .ok c ↔ ∃ us, List.Forall₂ (OwnerIs H) l us ∧ c = .multiSig us l.length) ∧
    (fromRecipient H (.pair (.int i) (.list l)) .none = .ok c ↔ ∃ us, List.Forall₂ (OwnerIs H) l us ∧ c = .multiSig us i) ∧
    (fromRecipient H (.pair (.list l) (.int i)) .none = .ok c ↔ ∃ us, List.Forall₂ (OwnerIs H) l us ∧ c = .multiSig us i) ∧
    (fromRecipient H (.pair (.int i) (.int j)) .none = .ok c ↔ j = 0 ∧ c = .multiSig [] i) ∧
    fromRecipient H (.pair (.list l) (.list l')) .none ≠ .ok c ∧
    (fromRecipient H (.bytes b) .none = .ok c ↔ ∃ u, AddressText H (toHex b) u ∧ c = .unlockHash u) := by
  have hm : ∀ k, multiSigNew H l (.int k) = .ok c ↔ ∃ us, List.Forall₂ (OwnerIs H) l us ∧ c = .multiSig us k := by
    intro k
    simp only [multiSigNew, bind_iff, mapM_iff (owner_iff H), CountArg.resolve, pure_iff]
    constructor
    · rintro ⟨us, h, _, e, rfl⟩; cases e; exact ⟨us, h, rfl⟩
    · rintro ⟨us, h, rfl⟩; exact ⟨us, h, _, rfl, rfl⟩
  have hb : ∀ r, fromRecipient H r .none = .ok c ↔ r.base H = .ok c := by
    intro r
    unfold fromRecipient
    simp only [bind_iff, pure_iff, exists_eq_right]
  simp only [ne_eq, hb, Recipient.base, pairCondition, hm, bind_iff, C127_address, pure_iff]
  refine ⟨trivial, trivial, trivial, ?_, ?_, ?_⟩
  · split
    · rename_i h; subst h
      constructor
      · intro h; cases h; exact ⟨rfl, rfl⟩
      · rintro ⟨-, rfl⟩; rfl
    · rename_i h; simp [h]
  · rintro h
    obtain ⟨us, -, h⟩ := bind_ok h
    obtain ⟨k, h, -⟩ := bind_ok h
    cases h
  · constructor
    · rintro ⟨u, h, rfl⟩; exact ⟨u, h, rfl⟩
    · rintro ⟨u, h, rfl⟩; exact ⟨u, h, rfl⟩
example : fromRecipient toyHash (.list [.none, .str nilText]) .none = .ok (.multiSig [.default, ⟨0, ⟨List.replicate 32 0⟩⟩] 2) ∧
    fromRecipient toyHash (.pair (.int 2) (.int 0)) .none = .ok (.multiSig [] 2) ∧ fromRecipient toyHash (.pair (.int 0) (.int 2)) .none = .error .typeError ∧
    fromRecipient toyHash (.bytes (List.replicate 39 0)) .none = .ok (.unlockHash ⟨0, ⟨List.replicate 32 0⟩⟩) := by decide +kernel

end TF.Props
