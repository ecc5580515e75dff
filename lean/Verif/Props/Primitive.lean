import Verif.Lemmas.Currency
/-!
# Properties C10–C20: types/PrimitiveTypes.py
-/
namespace TF.Props
open TF Spec

/-! ## BinaryData and Hash -/

/-- One assignment `d.value = v` with any exception caught by the caller (the object then keeps its value). -/
def assignData (d : BinData) (v : BVal) : BinData :=
  match d.set v with
  | .ok d' => d'
  | .error _ => d

/-- **C10**. Whatever is assigned to a `BinaryData` of fixed size `n` (`n = 0` meaning the size of the first value), it always
holds nothing or exactly that many bytes, and its configuration never changes. -/
theorem C10_fixed_size_invariant (init : BVal) (fixed : Int) (enc : StrEnc) (d0 : BinData)
    (h : BinData.new init (some fixed) enc = .ok d0) (hist : List BVal) :
    let d := hist.foldl assignData d0
    d.enc = enc ∧
    (0 < fixed → d.fixed = some fixed.toNat ∧ (d.value.length = 0 ∨ d.value.length = fixed.toNat)) ∧
    (fixed = 0 → d.fixed = some d0.value.length ∧ (d.value.length = 0 ∨ d.value.length = d0.value.length)) ∧
    0 ≤ fixed := by
  have setok : ∀ (d d' : BinData) v n, d.fixed = some n → d.set v = .ok d' →
      d'.fixed = some n ∧ d'.enc = d.enc ∧ (d'.value.length = 0 ∨ d'.value.length = n) := by
    intro d d' v n hn hs
    unfold BinData.set at hs
    cases hb : v.norm d.enc with
    | error e => simp [hb, bind, Except.bind] at hs
    | ok b =>
      simp only [hb, bind, Except.bind, hn] at hs
      split at hs
      · cases hs
      · cases hs
        refine ⟨rfl, rfl, ?_⟩
        simp only; omega
  have setok0 : ∀ (d d' : BinData) v, d.fixed = none → d.set v = .ok d' → d'.enc = d.enc := by
    intro d d' v hn hs
    unfold BinData.set at hs
    cases hb : v.norm d.enc with
    | error e => simp [hb, bind, Except.bind] at hs
    | ok b =>
      simp only [hb, bind, Except.bind, hn] at hs
      cases hs; rfl
  have run : ∀ (hist : List BVal) (d : BinData) n, d.fixed = some n → (d.value.length = 0 ∨ d.value.length = n) →
      (hist.foldl assignData d).fixed = some n ∧ (hist.foldl assignData d).enc = d.enc ∧
      ((hist.foldl assignData d).value.length = 0 ∨ (hist.foldl assignData d).value.length = n) := by
    intro hist
    induction hist with
    | nil => intro d n h1 h2; exact ⟨h1, rfl, h2⟩
    | cons v hist ih =>
      intro d n h1 h2
      simp only [List.foldl_cons, assignData]
      cases hs : d.set v with
      | error e => exact ih d n h1 h2
      | ok d' =>
        obtain ⟨a, b, c⟩ := setok d d' v n h1 hs
        obtain ⟨a', b', c'⟩ := ih d' n a c
        exact ⟨a', by rw [b', b], c'⟩
  unfold BinData.new at h
  simp only at h
  split at h
  · cases h
  · split at h
    · rename_i h1 h2
      obtain ⟨a, b, c⟩ := setok _ _ _ _ rfl h
      obtain ⟨a', b', c'⟩ := run hist d0 _ a c
      exact ⟨by rw [b', b], fun _ => ⟨a', c'⟩, fun h0 => absurd h0 h2, by omega⟩
    · rename_i h1 h2
      have h0 : fixed = 0 := by omega
      cases hs : BinData.set ⟨[], none, enc⟩ init with
      | error e => simp [hs, bind, Except.bind] at h
      | ok d =>
        simp only [hs, bind, Except.bind] at h
        cases h
        have he := setok0 _ _ _ rfl hs
        obtain ⟨a', b', c'⟩ := run hist { d with fixed := some d.value.length } d.value.length rfl (.inr rfl)
        exact ⟨by rw [b']; exact he, fun h => by omega, fun _ => ⟨a', c'⟩, by omega⟩

/-- **C10** (exactness of acceptance). An assignment to a fixed-size `BinaryData` succeeds iff the value denotes no bytes or
exactly `n` bytes, and then those bytes are stored. -/
theorem C10_set_accepts (d : BinData) (n : Nat) (hn : d.fixed = some n) (b : Bytes) :
    d.set (.bytes b) = (if b.length = 0 ∨ b.length = n then .ok { d with value := b } else .error .valueError) := by
  unfold BinData.set BVal.norm
  simp only [bind, Except.bind, hn]
  by_cases h : b.length = 0 ∨ b.length = n
  · rw [if_pos h, if_neg (by omega)]; rfl
  · rw [if_neg h, if_pos (by omega)]; rfl

example : ∃ d0, BinData.new (.bytes [1, 2]) (some 2) .hex = .ok d0 ∧
    ([.bytes [1], .str "0a0b".toList, .other, .none] : List BVal).foldl assignData d0 = ⟨[], some 2, .hex⟩ :=
  ⟨⟨[1, 2], some 2, .hex⟩, by decide, by decide⟩

/-- **C11**. For each string encoding, parsing the printed form of a `BinaryData` (of any size discipline it may be in) gives
back the same object. -/
theorem C11_binary_data_text_roundtrip (d : BinData)
    (hd : ∀ n, d.fixed = some n → d.value.length = 0 ∨ d.value.length = n) :
    BinData.fromJson d.str (d.fixed.map Int.ofNat) d.enc = .ok d := by
  obtain ⟨value, fixed, enc⟩ := d
  have hnorm : (if (⟨value, fixed, enc⟩ : BinData).str = [] then BVal.none
      else BVal.str (⟨value, fixed, enc⟩ : BinData).str).norm enc = .ok value := by
    split
    · rename_i h; rw [strenc_toStr_eq_nil enc value h]; rfl
    · simp [BVal.norm, BinData.str, strenc_roundtrip]
  unfold BinData.fromJson
  generalize (if (⟨value, fixed, enc⟩ : BinData).str = [] then BVal.none
      else BVal.str (⟨value, fixed, enc⟩ : BinData).str) = w at hnorm ⊢
  simp only [BinData.new]
  cases fixed with
  | none => simp [BinData.set, hnorm, bind, Except.bind]; rfl
  | some n =>
    have hd' := hd n rfl
    simp only [Option.map_some]
    have : ¬ (Int.ofNat n < 0) := by simp
    rw [if_neg this]
    by_cases hn : Int.ofNat n ≠ 0
    · rw [if_pos hn]
      simp only [BinData.set, hnorm, bind, Except.bind]
      simp only at hd'
      have e : (Int.ofNat n).toNat = n := rfl
      rw [e, if_neg (by omega)]
      rfl
    · rw [if_neg hn]
      have h0 : n = 0 := by simpa using hn
      subst h0
      have hv : value = [] := by simpa using hd'
      subst hv
      simp only [BinData.set, hnorm, bind, Except.bind]
      rfl

example : (⟨[255, 1, 16], none, .base64⟩ : BinData).str = "/wEQ".toList ∧
    (⟨[255, 1, 16, 7], none, .base64⟩ : BinData).str = "/wEQBw==".toList ∧
    (⟨[255, 1], none, .hexprefix⟩ : BinData).str = "0xff01".toList := by decide

/-- **C12** (what holds): a hash that has been given its 32 bytes survives printing and parsing. -/
theorem C12_hash_text_roundtrip_partial (h : Hash) (hl : h.value.length = 32) : Hash.fromJson h.str = .ok h := by
  have hne : toHex h.value ≠ [] := by
    intro h0; have := congrArg List.length h0; rw [toHex_length] at this; simp at this; omega
  have hs : h.str = toHex h.value := by simp [Hash.str, hne]
  unfold Hash.fromJson Hash.new
  rw [hs, if_neg hne]
  simp [BinData.new, BinData.set, BVal.norm, StrEnc.fromStr, fromHex_toHex, bind, Except.bind, hl, pure, Except.pure]

/-- **C12** (finding). The default `Hash` prints as 64 zeros but parses back to a different, 32-byte, value with a different
binary encoding, so the full claim is false. -/
theorem C12_hash_text_roundtrip_false :
    ¬ (∀ h : Hash, (h.value.length = 0 ∨ h.value.length = 32) → Hash.fromJson h.str = .ok h) ∧
    (∃ h0 h1 : Hash, Hash.new .none = .ok h0 ∧ Hash.fromJson h0.str = .ok h1 ∧ h0.enc.length = 0 ∧ h1.enc.length = 32) := by
  refine ⟨fun h => absurd (h ⟨[]⟩ (by decide)) (by decide +kernel), ⟨[]⟩, ⟨List.replicate 32 0⟩, by decide, by decide +kernel, rfl, rfl⟩

example : (⟨List.replicate 32 171⟩ : Hash).value.length = 32 := by decide

/-! ## Currency -/

/-- A reference to a value in the caller's program: a literal, or a previously created `Currency` object. -/
inductive CRef
  | none | int (i : Int) | str (s : Str) | float (r : Str) | dec (d : DecLit) | other | obj (j : Nat)

/-- The value an assignment `c.value = ref` receives. -/
def CRef.toVal (st : List Currency) : CRef → CVal
  | .none => .none | .int i => .int i | .str s => .str s | .float _ => .other | .dec d => .dec d | .other => .other
  | .obj j => match st[j]? with
    | some c => .cur c
    | Option.none => .other

/-- The value an operator receives as its other operand. -/
def CRef.toOperand (st : List Currency) : CRef → COperand
  | .none => .other | .int i => .int i | .str s => .str s | .float r => .float r | .dec _ => .other | .other => .other
  | .obj j => match st[j]? with
    | some c => .cur c
    | Option.none => .other

/-- One step of a program using `Currency`. -/
inductive COp
  | new (v : CRef)
  | assign (i : Nat) (v : CRef)
  | add (i : Nat) (o : CRef) | sub (i : Nat) (o : CRef) | rsub (i : Nat) (o : CRef) | mul (i : Nat) (o : CRef)
  | iadd (i : Nat) (o : CRef) | isub (i : Nat) (o : CRef) | imul (i : Nat) (o : CRef)

/-- All `Currency` objects of a program, in creation order; a raising operation changes nothing. -/
def cstep (st : List Currency) (op : COp) : List Currency :=
  let fresh (r : Res Currency) := match r with | .ok c => st ++ [c] | .error _ => st
  let upd (i : Nat) (r : Res Currency) := match r with | .ok c => st.set i c | .error _ => st
  match op with
  | .new v => fresh (Currency.set (v.toVal st))
  | .assign i v => upd i (Currency.set (v.toVal st))
  | .add i o => match st[i]? with | some c => fresh (c.add (o.toOperand st)) | none => st
  | .sub i o => match st[i]? with | some c => fresh (c.sub (o.toOperand st)) | none => st
  | .rsub i o => match st[i]? with | some c => fresh (c.rsub (o.toOperand st)) | none => st
  | .mul i o => match st[i]? with | some c => fresh (c.mul (o.toOperand st)) | none => st
  | .iadd i o => match st[i]? with | some c => upd i (c.add (o.toOperand st)) | none => st
  | .isub i o => match st[i]? with | some c => upd i (c.sub (o.toOperand st)) | none => st
  | .imul i o => match st[i]? with | some c => upd i (c.mul (o.toOperand st)) | none => st

/-- **C13**. After any program over `Currency` objects, each of them is unsigned and has at most nine decimals (so it is a
natural number of smallest units). -/
theorem C13_currency_always_good (prog : List COp) : ∀ c ∈ prog.foldl cstep [], GoodCurrency c := by
  have vgood : ∀ (st : List Currency), (∀ c ∈ st, GoodCurrency c) → ∀ (v : CRef) c', v.toVal st = .cur c' → GoodCurrency c' := by
    intro st hst v c' h
    cases v <;> simp only [CRef.toVal] at h <;> try cases h
    split at h
    · rename_i hj; cases h; exact hst _ (List.mem_of_getElem? hj)
    · cases h
  have fresh : ∀ (st : List Currency), (∀ c ∈ st, GoodCurrency c) → ∀ r : Res Currency, (∀ c, r = .ok c → GoodCurrency c) →
      ∀ c ∈ (match r with | .ok c => st ++ [c] | .error _ => st), GoodCurrency c := by
    intro st hst r hr c hc
    cases r with
    | error e => exact hst c hc
    | ok x =>
      simp only [List.mem_append, List.mem_singleton] at hc
      rcases hc with hc | rfl
      · exact hst c hc
      · exact hr _ rfl
  have upd : ∀ (st : List Currency), (∀ c ∈ st, GoodCurrency c) → ∀ i, ∀ r : Res Currency, (∀ c, r = .ok c → GoodCurrency c) →
      ∀ c ∈ (match r with | .ok c => st.set i c | .error _ => st), GoodCurrency c := by
    intro st hst i r hr c hc
    cases r with
    | error e => exact hst c hc
    | ok x =>
      rcases List.mem_or_eq_of_mem_set hc with hc | rfl
      · exact hst c hc
      · exact hr _ rfl
  have step : ∀ (st : List Currency) op, (∀ c ∈ st, GoodCurrency c) → ∀ c ∈ cstep st op, GoodCurrency c := by
    intro st op hst
    unfold cstep
    cases op <;> simp only
    case new v => exact fresh st hst _ (fun c h => currency_set_good (vgood st hst v) h)
    case assign i v => exact upd st hst i _ (fun c h => currency_set_good (vgood st hst v) h)
    case add i o => 
      split
      · exact fresh st hst _ (fun c h => add_good h)
      · exact hst
    case sub i o => 
      split
      · exact fresh st hst _ (fun c h => sub_good h)
      · exact hst
    case rsub i o => 
      split
      · exact fresh st hst _ (fun c h => sub_good h)
      · exact hst
    case mul i o => 
      split
      · exact fresh st hst _ (fun c h => mul_good h)
      · exact hst
    case iadd i o => 
      split
      · exact upd st hst i _ (fun c h => add_good h)
      · exact hst
    case isub i o => 
      split
      · exact upd st hst i _ (fun c h => sub_good h)
      · exact hst
    case imul i o => 
      split
      · exact upd st hst i _ (fun c h => mul_good h)
      · exact hst
  have gen : ∀ (prog : List COp) st, (∀ c ∈ st, GoodCurrency c) → ∀ c ∈ prog.foldl cstep st, GoodCurrency c := by
    intro prog
    induction prog with
    | nil => intro st h; exact h
    | cons op prog ih => intro st h; exact ih _ (step st op h)
  exact gen prog [] (by simp)

/-- A program that creates, adds, fails to over-subtract and multiplies leaves the expected objects. -/
example : ([.new (.str "1.5 TFT".toList), .add 0 (.int 2), .sub 0 (.int 9), .mul 1 (.obj 0)] : List COp).foldl cstep [] =
    [⟨some ⟨false, 15, -1⟩⟩, ⟨some ⟨false, 35, -1⟩⟩, ⟨some ⟨false, 525, -2⟩⟩] := by decide

/-- **C14** (what holds): negative or over-precise values are refused, and nothing else numeric is. -/
theorem C14_refusal_partial (d : Dec) :
    (∃ c, Currency.set (.dec (.fin d)) = .ok c) ↔ (d.neg = false ∧ -9 ≤ d.exp) := by
  constructor
  · rintro ⟨c, h⟩
    simp only [Currency.set] at h
    obtain ⟨h1, d', hd, rfl⟩ := checkDec_good h
    cases hd; exact h1
  · intro h; exact ⟨_, checkDec_ok h⟩

/-- **C14** (finding). The documented exceptions are never raised by any assignment: a refused decimal raises `NameError`. -/
theorem C14_documented_error_false :
    (∀ v : CVal, Currency.set v ≠ .error .currencyNegativeValue ∧ Currency.set v ≠ .error .currencyPrecisionOverflow) ∧
    (∀ d : Dec, ¬ (d.neg = false ∧ -9 ≤ d.exp) → Currency.set (.dec (.fin d)) = .error .nameError) ∧
    (∀ i : Int, i < 0 → Currency.set (.int i) = .error .nameError) := by
  have chk : ∀ l : DecLit, Currency.checkDec l ≠ .error .currencyNegativeValue ∧ Currency.checkDec l ≠ .error .currencyPrecisionOverflow := by
    intro l
    cases l with
    | special => simp [Currency.checkDec]
    | fin d => simp only [Currency.checkDec]; split <;> (try split) <;> simp
  refine ⟨fun v => ?_, fun d hd => ?_, fun i hi => ?_⟩
  · cases v with
    | none => simp [Currency.set]
    | cur c => simp [Currency.set]
    | int i => simp only [Currency.set]; exact chk _
    | str s =>
      simp only [Currency.set]
      split
      · simp
      · exact chk _
    | dec d => simp only [Currency.set]; exact chk _
    | other => simp [Currency.set]
  · simp only [Currency.set, Currency.checkDec]
    split
    · rfl
    · rename_i h
      rw [if_pos]
      simp only [not_and] at hd
      cases hn : d.neg with
      | true => rfl
      | false => exact absurd (by omega) (hd hn)
  · simp only [Currency.set, Currency.checkDec, Dec.ofInt]
    simp [hi]

/-- **C15** (what holds). Below 10^28 smallest units (10^19 TFT): addition never raises and is exact; subtraction is exact
when it can be, and raises (leaving no result) exactly when the result would be negative. -/
theorem C15_add_sub_exact_partial (a b : Currency) (ha : GoodCurrency a) (hb : GoodCurrency b) :
    (amount a + amount b < 10^28 → ∃ c, a.add (.cur b) = .ok c ∧ amount c = amount a + amount b) ∧
    (amount a < 10^28 → amount b ≤ amount a → ∃ c, a.sub (.cur b) = .ok c ∧ amount c = amount a - amount b) ∧
    (amount a < amount b → a.sub (.cur b) = .error .nameError) := by
  refine ⟨fun h => ?_, fun h hle => ?_, fun h => ?_⟩
  · obtain ⟨c, e, h1, h2, h3⟩ := add_raw ha hb
    have hc : c < 10^28 := Nat.lt_of_le_of_lt (units_le_of_scaled h3) h
    rw [decFix_of_lt (by exact hc)] at h1
    refine ⟨⟨some ⟨false, c, e⟩⟩, ?_, h3⟩
    simp only [Currency.add, COperand.asCurrency, bind, Except.bind, h1, Currency.set]
    exact checkDec_ok ⟨rfl, h2⟩
  · obtain ⟨c, e, neg, h1, h2, h3, h4⟩ := sub_raw ha hb
    have hn : neg = false := by
      cases neg with
      | false => rfl
      | true => have := h3.1 rfl; simp only [amount] at hle; omega
    subst hn
    have h5 := h4 hle
    have hc : c < 10^28 := Nat.lt_of_le_of_lt (units_le_of_scaled h5) (by simp only [amount] at h; omega)
    rw [decFix_of_lt (by exact hc)] at h1
    refine ⟨⟨some ⟨false, c, e⟩⟩, ?_, h5⟩
    simp only [Currency.sub, COperand.asCurrency, bind, Except.bind, h1, Currency.set]
    exact checkDec_ok ⟨rfl, h2⟩
  · obtain ⟨c, e, neg, h1, h2, h3, -⟩ := sub_raw ha hb
    have hn : neg = true := h3.2 h
    subst hn
    simp only [Currency.sub, COperand.asCurrency, bind, Except.bind, h1, Currency.set, Currency.checkDec]
    have := decFix_exp ⟨true, c, e⟩
    have hneg := decFix_neg ⟨true, c, e⟩
    simp only at this hneg
    rw [if_neg (by omega), if_pos hneg]

/-- **C15** (multiplication, what holds). If the product of the stored coefficients has at most 28 digits, multiplication
is exact, and is refused exactly when the product has more than nine decimals. -/
theorem C15_mul_exact_partial (a b : Currency) (ha : GoodCurrency a) (hb : GoodCurrency b)
    (h : a.value.coef * b.value.coef < 10^28) :
    (-9 ≤ a.value.exp + b.value.exp → ∃ c, a.mul (.cur b) = .ok c ∧ amount c * 10^9 = amount a * amount b) ∧
    (a.value.exp + b.value.exp < -9 → a.mul (.cur b) = .error .nameError) := by
  have hm : a.value.mul b.value = ⟨false, a.value.coef * b.value.coef, a.value.exp + b.value.exp⟩ := by
    unfold Dec.mul
    rw [decFix_of_lt (by exact h), ha.1, hb.1]; rfl
  constructor
  · intro he
    refine ⟨⟨some ⟨false, a.value.coef * b.value.coef, a.value.exp + b.value.exp⟩⟩, ?_, ?_⟩
    · simp only [Currency.mul, COperand.asCurrency, bind, Except.bind, hm, Currency.set]
      exact checkDec_ok ⟨rfl, he⟩
    · simp only [amount, units, Currency.value, Option.getD_some]
      have h1 := ha.2
      have h2 := hb.2
      simp only [Currency.value] at h1 h2 he
      have e : ((a.val.getD ⟨false, 0, 0⟩).exp + (b.val.getD ⟨false, 0, 0⟩).exp + 9).toNat + 9 =
          ((a.val.getD ⟨false, 0, 0⟩).exp + 9).toNat + ((b.val.getD ⟨false, 0, 0⟩).exp + 9).toNat := by omega
      rw [Nat.mul_assoc, ← Nat.pow_add, e, Nat.pow_add]
      generalize 10 ^ ((a.val.getD ⟨false, 0, 0⟩).exp + 9).toNat = x
      generalize 10 ^ ((b.val.getD ⟨false, 0, 0⟩).exp + 9).toNat = y
      rw [Nat.mul_assoc, Nat.mul_assoc]
      congr 1
      rw [Nat.mul_left_comm]
  · intro he
    simp only [Currency.mul, COperand.asCurrency, bind, Except.bind, hm, Currency.set, Currency.checkDec]
    rw [if_pos he]

/-- **C15** (finding). Past 28 significant digits a sum silently loses money: 10^19 TFT plus one smallest unit is 10^19 TFT. -/
theorem C15_exact_false :
    ¬ (∀ a b c : Currency, GoodCurrency a → GoodCurrency b → a.add (.cur b) = .ok c → amount c = amount a + amount b) := by
  intro h
  have := h ⟨some ⟨false, 10^19, 0⟩⟩ ⟨some ⟨false, 1, -9⟩⟩ ⟨some ⟨false, 10^27, -8⟩⟩ ⟨rfl, by decide⟩ ⟨rfl, by decide⟩ (by decide +kernel)
  exact absurd this (by decide)

example : GoodCurrency ⟨some ⟨false, 15, -1⟩⟩ ∧ amount ⟨some ⟨false, 15, -1⟩⟩ = 1500000000 := ⟨⟨rfl, by decide⟩, by decide⟩

/-- **C16** (finding). `x - c` is computed as `c - x`: for every pair it is the same call, and so the claim is false. -/
theorem C16_rsub_false :
    (∀ (c : Currency) (x : Int), c.rsub (.int x) = c.sub (.int x)) ∧
    ¬ (∀ (x : Nat) (c r : Currency), GoodCurrency c → c.rsub (.int x) = .ok r → amount r + amount c = x * 10^9) := by
  refine ⟨fun c x => rfl, fun h => ?_⟩
  have := h 2 ⟨some ⟨false, 5, 0⟩⟩ ⟨some ⟨false, 3, 0⟩⟩ ⟨rfl, by decide⟩ (by decide)
  exact absurd this (by decide)

/-- **C17** (what holds). Amounts below 10^28 smallest units survive JSON: the JSON text is the decimal number of units, and
parsing it gives an equal currency. -/
theorem C17_currency_json_partial (c : Currency) (h : GoodCurrency c) (hlt : amount c < 10^28) :
    c.json = natStr (amount c) ∧ ∃ c', Currency.fromJson c.json = .ok c' ∧ amount c' = amount c ∧ c'.eqv c = true := by
  have hj : c.json = natStr (amount c) := by unfold Currency.json; rw [toInt_eq h]
  refine ⟨hj, ⟨some ⟨false, amount c, -9⟩⟩, ?_, ?_, ?_⟩
  · rw [hj]
    unfold Currency.fromJson
    rw [if_neg (natStr_ne_nil _), parseDec_natStr]
    have hm : (⟨false, amount c, 0⟩ : Dec).mul ⟨false, 1, -9⟩ = ⟨false, amount c, -9⟩ := by
      unfold Dec.mul
      rw [decFix_of_lt (by simp only [Nat.mul_one]; exact hlt)]
      simp
    simp only [hm, Currency.set]
    exact checkDec_ok ⟨rfl, Int.le_refl _⟩
  · simp [amount, units, Currency.value]
  · unfold Currency.eqv
    rw [(cmp_units ⟨rfl, Int.le_refl _⟩ h).2]
    simp [amount, units, Currency.value]

/-- **C17** (finding). With 29 significant digits the JSON round trip changes the amount. -/
theorem C17_currency_json_false :
    ¬ (∀ c c' : Currency, GoodCurrency c → Currency.fromJson c.json = .ok c' → amount c' = amount c) := by
  intro h
  have := h ⟨some ⟨false, 10^28 + 1, -9⟩⟩ ⟨some ⟨false, 10^27, -8⟩⟩ ⟨rfl, by decide⟩ (by decide +kernel)
  exact absurd this (by decide)

/-- **C18**. Every currency survives printing (with or without unit) and parsing, whatever its size. -/
theorem C18_currency_text_roundtrip (c : Currency) (h : GoodCurrency c) (withUnit : Bool) :
    ∃ c', Currency.set (.str (c.str withUnit)) = .ok c' ∧ amount c' = amount c ∧ c'.eqv c = true := by
  obtain ⟨A, F, hs, hA, hF, hd, hv⟩ := str_amount h
  generalize hS : (if F = [] then A else A ++ '.' :: F) = S at hs
  have hSne : S ≠ [] := by rw [← hS]; split <;> simp [hA]
  have hhead : ∀ x, S.head? = some x → isDig x = true := by
    intro x hx
    rw [← hS] at hx
    apply hd
    split at hx
    · exact List.mem_append_left _ (List.mem_of_head? hx)
    · rw [List.head?_append, List.head?_eq_some_head hA] at hx
      simp at hx; subst hx
      exact List.mem_append_left _ (List.head_mem hA)
  have hlast : ∀ x, S.getLast? = some x → isDig x = true := by
    intro x hx
    rw [← hS] at hx
    apply hd
    split at hx
    · exact List.mem_append_left _ (List.mem_of_getLast? hx)
    · rename_i hFne
      rw [List.getLast?_append, List.getLast?_cons] at hx
      have := List.getLast?_eq_some_getLast hFne
      rw [this] at hx
      simp at hx
      subst hx
      exact List.mem_append_right _ (List.getLast_mem hFne)
  have hall : ∀ x ∈ S, isDig x = true ∨ x = '.' := by
    intro x hx
    rw [← hS] at hx
    split at hx
    · exact .inl (hd x (by simp [hx]))
    · simp only [List.mem_append, List.mem_cons] at hx
      rcases hx with hx | rfl | hx
      · exact .inl (hd x (by simp [hx]))
      · exact .inr rfl
      · exact .inl (hd x (by simp [hx]))
  have hup : upper S = S := by
    unfold upper
    conv => rhs; rw [← List.map_id S]
    apply List.map_congr_left
    intro x hx
    rcases hall x hx with h | rfl
    · exact (isDig_facts h).2.2.2.2.2.2.2.1
    · rfl
  have hstrip : strip S = S := strip_eq_self (fun x hx => (isDig_facts (hhead x hx)).1) (fun x hx => (isDig_facts (hlast x hx)).1)
  have key : Currency.stripUnit (c.str withUnit) = S := by
    cases withUnit with
    | false =>
      rw [hs]
      unfold Currency.stripUnit
      simp only [hup, hstrip]
      rw [if_neg]
      rintro ⟨h4, hT⟩
      have : S.getLast? = some 'T' := by
        have h3 : (S.drop (S.length - 3)).getLast? = some 'T' := by rw [hT]; rfl
        rw [List.getLast?_drop, if_neg (by omega)] at h3
        exact h3
      exact absurd (hlast 'T' this) (by decide)
    | true =>
      have hs' : c.str true = S ++ " TFT".toList := by
        have : c.str true = c.str false ++ " TFT".toList := by simp [Currency.str]
        rw [this, hs]
      have hu : upper (S ++ " TFT".toList) = S ++ [' ', 'T', 'F', 'T'] := by
        have : upper (S ++ " TFT".toList) = upper S ++ [' ', 'T', 'F', 'T'] := by
          simp [upper]
        rw [this, hup]
      have hst : strip (S ++ [' ', 'T', 'F', 'T']) = S ++ [' ', 'T', 'F', 'T'] := by
        apply strip_eq_self
        · intro x hx
          rw [List.head?_append, List.head?_eq_some_head hSne] at hx
          rw [Option.some_or, ← List.head?_eq_some_head hSne] at hx
          exact (isDig_facts (hhead x hx)).1
        · intro x hx
          simp at hx
          subst hx; decide
      have hlen : (S ++ [' ', 'T', 'F', 'T']).length - 3 = (S ++ [' ']).length := by simp
      have hdrop : (S ++ [' ', 'T', 'F', 'T']).drop ((S ++ [' ', 'T', 'F', 'T']).length - 3) = ['T', 'F', 'T'] := by
        rw [hlen]
        have : S ++ [' ', 'T', 'F', 'T'] = (S ++ [' ']) ++ ['T', 'F', 'T'] := by simp
        rw [this, List.drop_left]
      have htake : (S ++ [' ', 'T', 'F', 'T']).take ((S ++ [' ', 'T', 'F', 'T']).length - 3) = S ++ [' '] := by
        rw [hlen]
        have : S ++ [' ', 'T', 'F', 'T'] = (S ++ [' ']) ++ ['T', 'F', 'T'] := by simp
        rw [this, List.take_left]
      have hr : rstrip isPySpace (S ++ [' ']) = S := by
        have : rstrip isPySpace (S ++ [' ']) = rstrip isPySpace S := by
          unfold rstrip
          rw [List.reverse_append]
          simp [List.dropWhile_cons, isPySpace]
        rw [this]
        exact rstrip_eq_self (fun x hx => (isDig_facts (hlast x hx)).1)
      rw [hs']
      unfold Currency.stripUnit
      simp only [hu, hst, hdrop, htake, hr]
      rw [if_pos]
      exact ⟨by simp, trivial⟩
  have hp : parseDec S = some (.fin ⟨false, digVal (A ++ F), -(F.length : Int)⟩) := by
    rw [parseDec_plain S hSne hhead hall, ← hS, parseUnsigned_amount A F hA hd]; rfl
  have hg : IsAmount ⟨false, digVal (A ++ F), -(F.length : Int)⟩ := ⟨rfl, by simp only; omega⟩
  have hu : units ⟨false, digVal (A ++ F), -(F.length : Int)⟩ = amount c := by
    rw [← hv]; unfold units
    have : (-(F.length : Int) + 9).toNat = 9 - F.length := by omega
    simp only [this]
  refine ⟨⟨some ⟨false, digVal (A ++ F), -(F.length : Int)⟩⟩, ?_, ?_, ?_⟩
  · simp only [Currency.set, key, hp]; exact checkDec_ok hg
  · simpa [amount, Currency.value] using hu
  · unfold Currency.eqv
    rw [(cmp_units (a := Currency.value ⟨some ⟨false, digVal (A ++ F), -(F.length : Int)⟩⟩) hg h).2]
    exact hu

example : (⟨some ⟨false, 10050, -3⟩⟩ : Currency).str true = "10.05 TFT".toList := by decide
example : (⟨none⟩ : Currency).str false = "0".toList := by decide

/-- **C19**. The sia and rivine encodings of an amount (Currency or Blockstake) carry the shortest big-endian byte string of
the number of smallest units, and can be split off any stream and decoded. -/
theorem C19_amount_encoding (n : Nat) :
    ∃ bs : Bytes, beValue bs = n ∧ bs.head? ≠ some 0 ∧
      (bs.length < 2^64 → ∃ x, amountSia n = ⟨x, none⟩ ∧ ∀ rest, siaSliceDecode (x ++ rest) = some (bs, rest)) ∧
      (bs.length < 2^29 → ∃ x, amountRiv n = ⟨x, none⟩ ∧ ∀ rest, rivSliceDecode (x ++ rest) = some (bs, rest)) := by
  refine ⟨toBytesBE (minBytes n) n, ?_, minBytes_head n, ?_, ?_⟩
  · rw [beValue_toBytesBE, Nat.mod_eq_of_lt (minBytes_spec n).1]
  · intro h
    simp only [toBytesBE_length] at h
    refine ⟨toBytesLE 8 (minBytes n) ++ toBytesBE (minBytes n) n, ?_, fun rest => ?_⟩
    · unfold amountSia; rw [siaInt_ok (by omega) (by omega)]; simp [Out.andThen, Out.ok]
    · rw [List.append_assoc, siaSliceDecode_eq h, splitBytes_append' _ _ (by simp)]
  · intro h
    refine ⟨_, rivSliceBytes_ok h, fun rest => ?_⟩
    rw [List.append_assoc, rivSliceDecode_eq h, splitBytes_append]

/-- **C19** (Currency). What is encoded for a `Currency` is its exact number of smallest units. -/
theorem C19_currency_encodes_units (c : Currency) (h : GoodCurrency c) :
    c.sia = amountSia (amount c) ∧ c.riv = amountRiv (amount c) := by
  unfold Currency.sia Currency.riv; rw [toInt_eq h]; exact ⟨rfl, rfl⟩

/-- **C19** (unambiguity). Amount encodings are self-delimiting. -/
theorem C19_amount_self_delimiting :
    SelfDelimiting (fun _ => True) (fun n : Nat => (amountSia n).toRes) ∧
    SelfDelimiting (fun _ => True) (fun n : Nat => (amountRiv n).toRes) := by
  have inj : ∀ a b : Nat, toBytesBE (minBytes a) a = toBytesBE (minBytes b) b → a = b := by
    intro a b h
    have := congrArg beValue h
    rwa [beValue_toBytesBE, beValue_toBytesBE, Nat.mod_eq_of_lt (minBytes_spec a).1, Nat.mod_eq_of_lt (minBytes_spec b).1] at this
  constructor
  · intro a b x y r s _ _ ha hb h
    have slice : ∀ n, amountSia n = siaSliceBytes (toBytesBE (minBytes n) n) := by
      intro n; unfold amountSia siaSliceBytes; simp
    simp only [slice] at ha hb
    have ok : ∀ (n : Nat) z, (siaSliceBytes (toBytesBE (minBytes n) n)).toRes = .ok z →
        minBytes n < 2^64 ∧ z = toBytesLE 8 (minBytes n) ++ toBytesBE (minBytes n) n := by
      intro n z hz
      by_cases hn : minBytes n < 2^64
      · rw [siaSliceBytes_ok (by simpa using hn)] at hz
        simp [Out.ok, Out.toRes] at hz
        exact ⟨hn, hz.symm⟩
      · rw [siaSliceBytes_err (by simp; omega)] at hz
        simp [Out.raise, Out.toRes] at hz
    obtain ⟨la, rfl⟩ := ok a x ha
    obtain ⟨lb, rfl⟩ := ok b y hb
    have d1 := siaSliceDecode_eq la (toBytesBE (minBytes a) a ++ r)
    rw [← List.append_assoc, h, List.append_assoc, siaSliceDecode_eq lb, splitBytes_append' _ _ (by simp),
      splitBytes_append' _ _ (by simp)] at d1
    simp only [Option.some.injEq, Prod.mk.injEq] at d1
    exact ⟨inj _ _ d1.1.symm, d1.2.symm⟩
  · intro a b x y r s _ _ ha hb h
    have ok : ∀ (n : Nat) z, (amountRiv n).toRes = .ok z →
        minBytes n < 2^29 ∧ z = rivLenBytes (minBytes n) ++ toBytesBE (minBytes n) n := by
      intro n z hz
      unfold amountRiv at hz
      by_cases hn : minBytes n < 2^29
      · rw [rivSliceBytes_ok (by simpa using hn)] at hz
        simp [Out.ok, Out.toRes] at hz
        exact ⟨hn, hz.symm⟩
      · rw [rivSliceBytes_err (by simp; omega)] at hz
        simp [Out.raise, Out.toRes] at hz
    obtain ⟨la, rfl⟩ := ok a x ha
    obtain ⟨lb, rfl⟩ := ok b y hb
    have d1 := rivSliceDecode_eq la (toBytesBE (minBytes a) a ++ r)
    rw [← List.append_assoc, h, List.append_assoc, rivSliceDecode_eq lb, splitBytes_append' _ _ (by simp),
      splitBytes_append' _ _ (by simp)] at d1
    simp only [Option.some.injEq, Prod.mk.injEq] at d1
    exact ⟨inj _ _ d1.1.symm, d1.2.symm⟩

example : amountRiv 1000000000 = ⟨[8, 0x3b, 0x9a, 0xca, 0x00], none⟩ ∧ amountRiv 0 = ⟨[0], none⟩ := by decide

/-- **C20**. Block stakes: ints are accepted iff non-negative (a negative raises `TypeError`), and every stake survives JSON. -/
theorem C20_blockstake (b : Blockstake) (i : Int) :
    Blockstake.fromJson b.json = .ok b ∧
    (0 ≤ i → ∃ s, Blockstake.set (.int i) = .ok s ∧ (s.value : Int) = i) ∧
    (i < 0 → Blockstake.set (.int i) = .error .typeError) := by
  refine ⟨?_, fun h => ⟨⟨i.toNat⟩, ?_, by simp only; omega⟩, fun h => by simp [Blockstake.set, h]⟩
  · unfold Blockstake.fromJson Blockstake.json
    rw [if_neg (natStr_ne_nil _)]
    simp [Blockstake.set, pyInt_natStr]
  · simp only [Blockstake.set]; rw [if_neg (by omega)]

example : Blockstake.fromJson "42".toList = .ok ⟨42⟩ := by decide

end TF.Props
