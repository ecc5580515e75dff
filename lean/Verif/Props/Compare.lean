import Verif.Spec.Compare
import Verif.Lemmas.Balance
import Verif.Lemmas.Address
import Verif.Props.Primitive
import Verif.Props.Conditions
import Verif.Props.Lookup
/-! # C118 — values compare as what they are -/
namespace TF.Props
open TF TF.Spec

theorem compare_amount {c b : Currency} (hc : GoodCurrency c) (hb : GoodCurrency b) (op : CmpOp) {o : COperand} (ho : o.asCurrency = .ok b) :
    Says (c.compare op o) (InOrder op (amount c) (amount b)) := by
  have h1 : c.value.lt b.value = true ↔ amount c < amount b := lt_amount hc hb
  have h2 : b.value.lt c.value = true ↔ amount b < amount c := lt_amount hb hc
  have h3 : c.value.eqv b.value = true ↔ amount c = amount b := eqv_amount hc hb
  refine ⟨_, show (do let b ← o.asCurrency; _) = _ by rw [ho]; rfl, ?_⟩
  cases op <;> simp only [InOrder, Bool.or_eq_true, Bool.not_eq_true', h1, h2, h3]
  · omega
  · rw [← Bool.not_eq_true, h3]
  · omega

/-- Comparing two amounts tells the order of the numbers of smallest units, whatever their decimal forms, and never raises. -/
theorem C118_amounts (op : CmpOp) (a b : Currency) (ha : GoodCurrency a) (hb : GoodCurrency b) :
    Says (a.compare op (.cur b)) (InOrder op (amount a) (amount b)) := compare_amount ha hb op rfl

/-- Comparing with a whole number is comparing with that many TFT, on either side of the operator. -/
theorem C118_whole_number (op : CmpOp) (a : Currency) (ha : GoodCurrency a) (n : Nat) :
    Says (a.compare op (.int n)) (InOrder op (amount a) (n * 10 ^ 9)) ∧
    Says (a.compare op.mirror (.int n)) (InOrder op (n * 10 ^ 9) (amount a)) := by
  have he : Dec.ofInt (n : Int) = ⟨false, n, 0⟩ := by unfold Dec.ofInt; simp
  have hset : (COperand.int n).asCurrency = .ok ⟨some ⟨false, n, 0⟩⟩ := by
    show Currency.checkDec (.fin (Dec.ofInt n)) = _
    rw [he]; rfl
  have hb : GoodCurrency ⟨some ⟨false, n, 0⟩⟩ := ⟨rfl, by show (-9 : Int) ≤ 0; decide⟩
  have hn : amount ⟨some ⟨false, n, 0⟩⟩ = n * 10 ^ 9 := rfl
  refine ⟨hn ▸ compare_amount ha hb op hset, ?_⟩
  have := compare_amount ha hb op.mirror hset
  rw [hn] at this
  cases op <;> simp only [CmpOp.mirror, InOrder, ne_eq] at this ⊢ <;> first
    | exact this
    | (rw [eq_comm]; exact this)

/-- Comparing with a text is comparing with the amount that text makes. -/
theorem C118_amount_text (op : CmpOp) (a b : Currency) (ha : GoodCurrency a) (s : Str) (hs : Currency.set (.str s) = .ok b) :
    Says (a.compare op (.str s)) (InOrder op (amount a) (amount b)) :=
  compare_amount ha (currency_set_good (by intro c' h; cases h) hs) op hs

/-- Whatever the operator answers, it answers about amounts: any answer is the order of the amount and a legal amount made from the
operand. -/
theorem C118_any_answer (op : CmpOp) (a : Currency) (ha : GoodCurrency a) (o : COperand) (ho : ∀ c, o = .cur c → GoodCurrency c) (r : Bool)
    (h : a.compare op o = .ok r) : ∃ b, o.asCurrency = .ok b ∧ GoodCurrency b ∧ (r = true ↔ InOrder op (amount a) (amount b)) := by
  obtain ⟨b, hb, h⟩ := bind_ok h
  have hg : GoodCurrency b := by
    cases o with
    | int i => exact currency_set_good (v := .int i) (by intro c' h; cases h) hb
    | str s => exact currency_set_good (v := .str s) (by intro c' h; cases h) hb
    | float r =>
      simp only [COperand.asCurrency] at hb
      split at hb
      · cases hb
      · exact currency_set_good (by intro c' h; cases h) hb
    | cur c => cases hb; exact ho _ rfl
    | other => cases hb
  obtain ⟨r', h1, h2⟩ := compare_amount ha hg op hb
  refine ⟨b, hb, hg, ?_⟩
  have : (do let b ← o.asCurrency; (_ : Res Bool)) = Except.ok r' := h1
  rw [hb] at this
  cases h.symm.trans this
  exact h2

/-- Exactly one of `<`, `==`, `>` holds, `<=` is `<` or `==`, `>=` is `>` or `==`, and `!=` is the opposite of `==`. -/
theorem C118_total_order (a b : Currency) (ha : GoodCurrency a) (hb : GoodCurrency b) :
    ∃ lt le eq ne gt ge, a.compare .lt (.cur b) = .ok lt ∧ a.compare .le (.cur b) = .ok le ∧ a.compare .eq (.cur b) = .ok eq ∧
      a.compare .ne (.cur b) = .ok ne ∧ a.compare .gt (.cur b) = .ok gt ∧ a.compare .ge (.cur b) = .ok ge ∧
      [lt, eq, gt].count true = 1 ∧ le = (lt || eq) ∧ ge = (gt || eq) ∧ ne = !eq ∧ b.compare .lt (.cur a) = .ok gt := by
  obtain ⟨lt, e1, h1⟩ := C118_amounts .lt a b ha hb
  obtain ⟨le, e2, h2⟩ := C118_amounts .le a b ha hb
  obtain ⟨eq, e3, h3⟩ := C118_amounts .eq a b ha hb
  obtain ⟨ne, e4, h4⟩ := C118_amounts .ne a b ha hb
  obtain ⟨gt, e5, h5⟩ := C118_amounts .gt a b ha hb
  obtain ⟨ge, e6, h6⟩ := C118_amounts .ge a b ha hb
  obtain ⟨x, e7, h7⟩ := C118_amounts .lt b a hb ha
  simp only [InOrder] at *
  have hx : x = gt := by rw [Bool.eq_iff_iff, h7, h5]
  subst hx
  refine ⟨lt, le, eq, ne, x, ge, e1, e2, e3, e4, e5, e6, ?_, ?_, ?_, ?_, e7⟩
  · cases lt <;> cases eq <;> cases x <;> simp_all <;> omega
  · rw [Bool.eq_iff_iff, Bool.or_eq_true, h1, h2, h3]; omega
  · rw [Bool.eq_iff_iff, Bool.or_eq_true, h6, h5, h3]; omega
  · rw [Bool.eq_iff_iff, h4, Bool.not_eq_true', ← Bool.not_eq_true, h3]

example : GoodCurrency ⟨some ⟨false, 15, -1⟩⟩ ∧ Currency.set (.str " 1.50 tft".toList) = .ok ⟨some ⟨false, 150, -2⟩⟩ ∧
    (⟨some ⟨false, 15, -1⟩⟩ : Currency).compare .eq (.str " 1.50 tft".toList) = .ok true ∧
    (⟨some ⟨false, 15, -1⟩⟩ : Currency).compare .lt (.int 2) = .ok true := ⟨⟨rfl, by decide⟩, by decide, by decide, by decide⟩

/-- Not every comparison answers: comparing an amount with a negative number raises a NameError (the errors module is not imported where the
documented error should be raised), comparing with what is not a number, such as None, raises a TypeError, where Python's other values are
just different. -/
theorem C118_amounts_false (op : CmpOp) (a : Currency) : (∀ n : Nat, a.compare op (.int (-(n : Int) - 1)) = .error .nameError) ∧
    a.compare op .other = .error .typeError := by
  refine ⟨fun n => ?_, rfl⟩
  have he : Dec.ofInt (-(n : Int) - 1) = ⟨true, n + 1, 0⟩ := by
    unfold Dec.ofInt
    have h1 : decide (-(n : Int) - 1 < 0) = true := by simp; omega
    have h2 : (-(n : Int) - 1).natAbs = n + 1 := by omega
    rw [h1, h2]
  have : (COperand.int (-(n : Int) - 1)).asCurrency = .error .nameError := by
    show Currency.checkDec (.fin (Dec.ofInt _)) = _
    rw [he]; rfl
  show (do let b ← (COperand.int (-(n : Int) - 1)).asCurrency; _) = _
  rw [this]; rfl

/-! ## Binary data -/

theorem operand_data {d o : BinData} (h1 : d.fixed = o.fixed) (h2 : d.enc = o.enc) : d.operand (.data o) = .ok o := by
  show (if d.fixed ≠ o.fixed then _ else _ : Res BinData) = _
  simp only [h1, ne_eq, not_true_eq_false, if_false]
  show (if d.enc ≠ o.enc then _ else _ : Res BinData) = _
  simp only [h2, ne_eq, not_true_eq_false, if_false]; rfl

theorem new_fits {v : BVal} {b : Bytes} {d : BinData} (hd : SoundData d) (hv : v.norm d.enc = .ok b) (hb : FitsIn d.fixed b) :
    BinData.new v (d.fixed.map Int.ofNat) d.enc = .ok ⟨b, d.fixed, d.enc⟩ := by
  obtain ⟨value, fixed, enc⟩ := d
  cases fixed with
  | none => show BinData.set ⟨[], none, enc⟩ v = _; unfold BinData.set; simp only at hv ⊢; rw [hv]; rfl
  | some n =>
    have hn := (hd n rfl).1
    have hl : ¬ (b.length ≠ 0 ∧ b.length ≠ n) := by
      rcases hb n rfl with h | h
      · simp [h]
      · simp [h]
    simp only [BinData.new, Option.map, show ¬ (Int.ofNat n < 0) by simp, if_false, show Int.ofNat n ≠ 0 by simp [hn], if_true, ne_eq, not_false_eq_true, BinData.set] at hv ⊢
    rw [hv]
    show (if b.length ≠ 0 ∧ b.length ≠ n then _ else _ : Res BinData) = _
    rw [if_neg hl]; rfl

theorem operand_new {d : BinData} {v : BVal} {b : Bytes} (hv : v = .str (d.enc.toStr b) ∨ v = .bytes b) (hd : SoundData d) (hb : FitsIn d.fixed b) :
    d.operand v = .ok ⟨b, d.fixed, d.enc⟩ := by
  have hnorm : v.norm d.enc = .ok b := by
    rcases hv with rfl | rfl
    · simp [BVal.norm, strenc_roundtrip]
    · rfl
  have hnew := new_fits hd hnorm hb
  have : d.operand v = (do
      let o ← BinData.new v (d.fixed.map Int.ofNat) d.enc
      if d.fixed ≠ o.fixed then throw .typeError
      if d.enc ≠ o.enc then throw .typeError
      return o) := by rcases hv with rfl | rfl <;> rfl
  rw [this, hnew]
  simp [bind, Except.bind, pure, Except.pure]

/-- Data compares with the text or the bytes of `b`, and with other data of the same size and encoding, as the bytes themselves; `!=` is the
opposite of `==`. -/
theorem C118_data (d : BinData) (hd : SoundData d) (b : Bytes) (hb : FitsIn d.fixed b) (v : BVal)
    (hv : v = .str (d.enc.toStr b) ∨ v = .bytes b ∨ v = .data ⟨b, d.fixed, d.enc⟩) :
    Says (d.equals v) (b = d.value) ∧ Says (d.differs v) (b ≠ d.value) := by
  have ho : d.operand v = .ok ⟨b, d.fixed, d.enc⟩ := by
    rcases hv with h | h | rfl
    · exact operand_new (.inl h) hd hb
    · exact operand_new (.inr h) hd hb
    · exact operand_data rfl rfl
  unfold BinData.equals BinData.differs
  rw [ho]
  exact ⟨⟨_, rfl, by simp⟩, ⟨_, rfl, by simp⟩⟩

/-- Data of different size or encoding does not compare: a TypeError, never an answer; so does anything that is neither data, text nor bytes. -/
theorem C118_data_kinds (d o : BinData) (h : d.fixed ≠ o.fixed ∨ d.enc ≠ o.enc) :
    d.equals (.data o) = .error .typeError ∧ d.differs (.data o) = .error .typeError ∧
    d.equals .none = .error .typeError ∧ d.equals .other = .error .typeError := by
  have ho : d.operand (.data o) = .error .typeError := by
    show (if d.fixed ≠ o.fixed then _ else _ : Res BinData) = _
    by_cases h1 : d.fixed = o.fixed
    · rw [if_neg (by simp [h1])]
      show (if d.enc ≠ o.enc then _ else _ : Res BinData) = _
      rw [if_pos (h.resolve_left (by simp [h1]))]; rfl
    · rw [if_pos h1]; rfl
  unfold BinData.equals BinData.differs
  rw [ho]
  exact ⟨rfl, rfl, rfl, rfl⟩

/-- The comparison of two data objects used by the atomic swap operations is this one. -/
theorem C118_data_objects (a b : BinData) : a.eq b = a.equals (.data b) := by
  unfold BinData.eq
  by_cases h1 : a.fixed = b.fixed
  · rw [if_neg (by simp [h1])]
    by_cases h2 : a.enc = b.enc
    · rw [if_neg (by simp [h2])]
      unfold BinData.equals
      rw [operand_data h1 h2]
      show _ = (Except.ok (decide (b.value = a.value)) : Res Bool)
      congr 1; simp only [eq_comm]
    · rw [if_pos h2, (C118_data_kinds a b (.inr h2)).1]
  · rw [if_pos h1, (C118_data_kinds a b (.inl h1)).1]

/-- Equality of data objects is symmetric, also in when it raises, and equal objects have the same hash, so that they are one key of a
dictionary. -/
theorem C118_data_keys (hashStr : Str → Int) (a b : BinData) : a.equals (.data b) = b.equals (.data a) ∧
    (a.equals (.data b) = .ok true → a.pyHash hashStr = b.pyHash hashStr) := by
  by_cases h : a.fixed = b.fixed ∧ a.enc = b.enc
  · unfold BinData.equals
    rw [operand_data h.1 h.2, operand_data h.1.symm h.2.symm]
    refine ⟨?_, fun e => ?_⟩
    · show (Except.ok (decide (b.value = a.value)) : Res Bool) = .ok (decide (a.value = b.value))
      congr 1; simp only [eq_comm]
    · have e : (Except.ok (decide (b.value = a.value)) : Res Bool) = .ok true := e
      have e : b.value = a.value := by simpa using e
      unfold BinData.pyHash BinData.str
      rw [e, h.2]
  · have h' : a.fixed ≠ b.fixed ∨ a.enc ≠ b.enc := by
      by_cases h1 : a.fixed = b.fixed
      · exact .inr fun h2 => h ⟨h1, h2⟩
      · exact .inl h1
    have h'' : b.fixed ≠ a.fixed ∨ b.enc ≠ a.enc := h'.imp Ne.symm Ne.symm
    rw [(C118_data_kinds a b h').1, (C118_data_kinds b a h'').1]
    exact ⟨rfl, fun e => by cases e⟩

/-- Identifiers (32-byte hashes) are the same key exactly when they are the same bytes, Python's hash of texts being taken for collision-free:
equal identifiers are found again, different ones never confused. -/
theorem C118_identifier_keys (hashStr : Str → Int) (hinj : ∀ s t, hashStr s = hashStr t → s = t) (a b : Hash) (ha : a.value.length = 32)
    (hb : b.value.length = 32) :
    Says (a.data.equals (.data b.data)) (a = b) ∧ (a.pyHash hashStr = b.pyHash hashStr ↔ a = b) := by
  have hs : SoundData a.data := by intro n h; cases h; exact ⟨by decide, .inr ha⟩
  have h1 := (C118_data a.data hs b.value (by intro n h; cases h; exact .inr hb) (.data b.data) (.inr (.inr rfl))).1
  refine ⟨?_, fun h => ?_, fun h => by rw [h]⟩
  · obtain ⟨r, h2, h3⟩ := h1
    refine ⟨r, h2, h3.trans ⟨fun h => ?_, fun h => by rw [h]; rfl⟩⟩
    obtain ⟨a⟩ := a; obtain ⟨b⟩ := b
    exact congrArg Hash.mk (Eq.symm h)
  · have h := hinj _ _ h
    have key : ∀ x : Hash, x.value.length = 32 → x.str = toHex x.value := by
      intro x hx
      unfold Hash.str
      have : toHex x.value ≠ [] := by
        intro he
        have := congrArg List.length he
        rw [toHex_length, hx] at this
        exact absurd this (by decide)
      simp only [this, if_false]
    rw [key a ha, key b hb] at h
    have h := toHex_inj h
    obtain ⟨a⟩ := a; obtain ⟨b⟩ := b
    exact congrArg Hash.mk h

example : SoundData (Hash.data ⟨List.replicate 32 7⟩) ∧ FitsIn (some 32) (List.replicate 32 8) ∧
    (Hash.data ⟨List.replicate 32 7⟩).equals (.bytes (List.replicate 32 7)) = .ok true ∧
    (Hash.data ⟨List.replicate 32 7⟩).equals (.str (toHex (List.replicate 32 8))) = .ok false :=
  ⟨by intro n h; cases h; exact ⟨by decide, .inr rfl⟩, by intro n h; cases h; exact .inr rfl, by decide +kernel, by decide +kernel⟩

/-- A text that equals an identifier is not always its key: the upper-case text of an identifier compares as equal to it, but has (a
collision-free hash assumed) another hash, so that it is not found in a dictionary of identifiers. -/
theorem C118_text_key_false (hashStr : Str → Int) (hinj : ∀ s t, hashStr s = hashStr t → s = t) :
    ∃ (h : Hash) (s : Str), h.value.length = 32 ∧ h.data.equals (.str s) = .ok true ∧ hashStr s ≠ h.pyHash hashStr := by
  refine ⟨⟨List.replicate 32 0xab⟩, (List.replicate 32 ['A', 'B']).flatten, by decide, by decide +kernel, fun h => ?_⟩
  exact absurd (hinj _ _ h) (by decide +kernel)

/-! ## Addresses -/

theorem address_equals (H : Bytes → Bytes) (u v : UnlockHash) (o : OwnerArg) (ho : UnlockHash.operand H o = .ok v) :
    Says (u.equals H o) (u = v) ∧ Says (u.differs H o) (u ≠ v) := by
  unfold UnlockHash.equals UnlockHash.differs
  rw [ho]
  have hd : u.hash.data.operand (.data v.hash.data) = .ok v.hash.data := operand_data rfl rfl
  have heq : (u = v) ↔ u.type = v.type ∧ u.hash.value = v.hash.value := by
    obtain ⟨t, ⟨x⟩⟩ := u; obtain ⟨t', ⟨y⟩⟩ := v
    simp
  constructor
  · show Says (if u.type = v.type then _ else _) _
    split
    · rename_i h
      refine ⟨decide (v.hash.value = u.hash.value), ?_, ?_⟩
      · unfold BinData.equals; rw [hd]; rfl
      · rw [heq]; simp [h, eq_comm]
    · rename_i h
      exact ⟨false, rfl, by rw [heq]; simp [h]⟩
  · show Says (if u.type ≠ v.type then _ else _) _
    split
    · rename_i h
      exact ⟨true, rfl, by rw [ne_eq, heq]; simp [h]⟩
    · rename_i h
      refine ⟨decide (v.hash.value ≠ u.hash.value), ?_, ?_⟩
      · unfold BinData.differs; rw [hd]; rfl
      · have h : u.type = v.type := Decidable.byContradiction h
        simp only [decide_eq_true_eq, ne_eq, heq, h, true_and]
        exact not_congr eq_comm

/-- Addresses compare as what they are, with each other and with the text of an address, and never raise then; `!=` is the opposite of `==`. -/
theorem C118_address (H : Bytes → Bytes) (hH : Digest32 H) (u v : UnlockHash) :
    (Says (u.equals H (.uh v)) (u = v) ∧ Says (u.differs H (.uh v)) (u ≠ v)) ∧
    (CanonicalAddress v → Says (u.equals H (.str (v.str H))) (u = v) ∧ Says (u.differs H (.str (v.str H))) (u ≠ v)) :=
  ⟨address_equals H u v _ rfl, fun hv => address_equals H u v _ (fromStr_str hH hv)⟩

/-- Addresses of the chain are the same key exactly when they are the same address, Python's hash of texts taken for collision-free. -/
theorem C118_address_keys (H : Bytes → Bytes) (hH : Digest32 H) (hashStr : Str → Int) (hinj : ∀ s t, hashStr s = hashStr t → s = t)
    (u v : UnlockHash) (hu : CanonicalAddress u) (hv : CanonicalAddress v) :
    u.pyHash hashStr H = v.pyHash hashStr H ↔ u = v := by
  refine ⟨fun h => ?_, fun h => by rw [h]⟩
  have h := congrArg (UnlockHash.fromStr H) (hinj _ _ h)
  rw [fromStr_str hH hu, fromStr_str hH hv] at h
  exact Except.ok.inj h

/-- A text that is no address does not just differ from every address: the comparison raises what reading the text raises; None raises a
TypeError. -/
theorem C118_address_false (H : Bytes → Bytes) (u : UnlockHash) :
    (∀ s : Str, s.length ≠ 78 → u.equals H (.str s) = .error .valueError) ∧ u.equals H .none = .error .typeError := by
  refine ⟨fun s hs => ?_, rfl⟩
  have : UnlockHash.operand H (.str s) = .error .valueError := by
    show UnlockHash.fromStr H s = _
    unfold UnlockHash.fromStr
    rw [if_pos hs]
  unfold UnlockHash.equals
  rw [this]; rfl

example : CanonicalAddress ⟨1, ⟨List.replicate 32 7⟩⟩ ∧
    UnlockHash.equals toyHash ⟨1, ⟨List.replicate 32 7⟩⟩ (.str (UnlockHash.str toyHash ⟨1, ⟨List.replicate 32 7⟩⟩)) = .ok true ∧
    UnlockHash.equals toyHash ⟨1, ⟨List.replicate 32 7⟩⟩ (.uh ⟨3, ⟨List.replicate 32 7⟩⟩) = .ok false :=
  ⟨.inl ⟨by decide, rfl⟩, by decide +kernel, by decide +kernel⟩

end TF.Props
