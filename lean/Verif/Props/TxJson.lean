import Verif.Spec.Full
import Verif.Props.ThreeBot
import Verif.Props.Primitive
import Verif.Props.Fulfillments
/-!
# Properties C36, C40: inputs, outputs and transactions through JSON
-/
namespace TF.Props
open TF Spec

/-! ## What comes back -/

/-- An amount as it comes back from JSON: the same number of smallest units. -/
def backCur (c : Currency) : Currency := ⟨some ⟨false, amount c, -9⟩⟩
/-- An output as it comes back: the id is not part of the JSON form. -/
def backOut (co : CoinOutput) : CoinOutput := ⟨backCur co.value, co.condition, ⟨[]⟩⟩
@[inherit_doc backOut] def backStake (co : StakeOutput) : StakeOutput := ⟨co.value, co.condition, ⟨[]⟩⟩
/-- An input as it comes back: the parent output is not part of the JSON form. -/
def backIn (ci : CoinInput) : CoinInput := ⟨ci.parentId, ci.fulfillment, none⟩
@[inherit_doc backIn] def backStakeIn (ci : StakeInput) : StakeInput := ⟨ci.parentId, ci.fulfillment, .default⟩

theorem backCur_good (c : Currency) : GoodCurrency (backCur c) := ⟨rfl, Int.le_refl _⟩
theorem backCur_amount (c : Currency) : amount (backCur c) = amount c := by
  simp [amount, units, backCur, Currency.value]
theorem backCur_sane {c : Currency} (h : SaneAmount c) : SaneAmount (backCur c) := ⟨backCur_good c, by rw [backCur_amount]; exact h.2⟩

theorem backCur_val {c : Currency} (h : GoodCurrency c) : (backCur c).toVal = c.toVal := by
  unfold Currency.toVal
  rw [(C19_currency_encodes_units _ (backCur_good c)).1, (C19_currency_encodes_units _ (backCur_good c)).2, backCur_amount,
    (C19_currency_encodes_units _ h).1, (C19_currency_encodes_units _ h).2]
theorem backCur_json {c : Currency} (h : GoodCurrency c) : (backCur c).json = c.json := by
  unfold Currency.json; rw [toInt_eq h, toInt_eq (backCur_good c), backCur_amount]

theorem cur_json {c : Currency} (h : SaneAmount c) : currencyOfJson (.str c.json) = .ok (backCur c) := by
  have hj : c.json = natStr (amount c) := by unfold Currency.json; rw [toInt_eq h.1]
  simp only [currencyOfJson]
  rw [hj]
  unfold Currency.fromJson
  rw [if_neg (natStr_ne_nil _), parseDec_natStr]
  have hm : (⟨false, amount c, 0⟩ : Dec).mul ⟨false, 1, -9⟩ = ⟨false, amount c, -9⟩ := by
    unfold Dec.mul
    rw [decFix_of_lt (by simp only [Nat.mul_one]; exact h.2)]
    simp
  simp only [hm, Currency.set]
  exact checkDec_ok ⟨rfl, Int.le_refl _⟩

theorem hash_json {h : Hash} (hl : h.value.length = 32) : hashOfJson (.str h.str) = .ok h := C12_hash_text_roundtrip_partial h hl

theorem coinInput_json {ci : CoinInput} (h : FullCoinInput ci) : CoinInput.fromJson ci.json = .ok (backIn ci) := by
  simp [CoinInput.fromJson, CoinInput.json, Json.idx, jget, hash_json h.1, C35_fulfillment_json_partial _ h.2, backIn, bind,
    Except.bind, pure, Except.pure]
theorem stakeInput_json {ci : StakeInput} (h : FullStakeInput ci) : StakeInput.fromJson ci.json = .ok (backStakeIn ci) := by
  simp [StakeInput.fromJson, StakeInput.json, Json.idx, jget, hash_json h.1, C35_fulfillment_json_partial _ h.2, backStakeIn, bind,
    Except.bind, pure, Except.pure]
theorem coinOutput_json {H : Bytes → Bytes} (hH : Digest32 H) {co : CoinOutput} (h : SaneCoinOutput co) :
    CoinOutput.fromJson H (co.json H) = .ok (backOut co) := by
  simp [CoinOutput.fromJson, CoinOutput.json, Json.idx, jget, cur_json h.1, C28_condition_json_partial H hH _ h.2, backOut, bind,
    Except.bind, pure, Except.pure]
theorem stakeOutput_json {H : Bytes → Bytes} (hH : Digest32 H) {co : StakeOutput} (h : SaneStakeOutput co) :
    StakeOutput.fromJson H (co.json H) = .ok (backStake co) := by
  have hs : stakeOfJson (.str co.value.json) = .ok co.value := (C20_blockstake co.value 0).1
  simp [StakeOutput.fromJson, StakeOutput.json, Json.idx, jget, hs, C28_condition_json_partial H hH _ h, backStake, bind,
    Except.bind, pure, Except.pure]

theorem backOut_val {co : CoinOutput} (h : SaneCoinOutput co) : (backOut co).val = co.val := by
  unfold CoinOutput.val backOut; simp only [backCur_val h.1.1]
theorem backOut_json {H : Bytes → Bytes} {co : CoinOutput} (h : SaneCoinOutput co) : (backOut co).json H = co.json H := by
  unfold CoinOutput.json backOut; simp only [backCur_json h.1.1]

/-! ## C36 -/

/-- **C36** (what holds). Complete inputs and sane outputs come back from JSON with the same contents (for outputs: the same number of
smallest units under the same condition) and the same binary encodings. -/
theorem C36_io_json_partial (H : Bytes → Bytes) (hH : Digest32 H) :
    (∀ ci : CoinInput, FullCoinInput ci → ∃ x, CoinInput.fromJson ci.json = .ok x ∧ x.parentId = ci.parentId ∧
      x.fulfillment = ci.fulfillment ∧ x.val = ci.val) ∧
    (∀ ci : StakeInput, FullStakeInput ci → ∃ x, StakeInput.fromJson ci.json = .ok x ∧ x.parentId = ci.parentId ∧
      x.fulfillment = ci.fulfillment ∧ x.val = ci.val) ∧
    (∀ co : CoinOutput, SaneCoinOutput co → ∃ x, CoinOutput.fromJson H (co.json H) = .ok x ∧ amount x.value = amount co.value ∧
      x.condition = co.condition ∧ x.val = co.val) ∧
    (∀ co : StakeOutput, SaneStakeOutput co → ∃ x, StakeOutput.fromJson H (co.json H) = .ok x ∧ x.value = co.value ∧
      x.condition = co.condition ∧ x.val = co.val) :=
  ⟨fun ci h => ⟨_, coinInput_json h, rfl, rfl, rfl⟩, fun ci h => ⟨_, stakeInput_json h, rfl, rfl, rfl⟩,
    fun co h => ⟨_, coinOutput_json hH h, backCur_amount _, rfl, backOut_val h⟩, fun co h => ⟨_, stakeOutput_json hH h, rfl, rfl, rfl⟩⟩

example : FullCoinInput ⟨⟨List.replicate 32 1⟩, .single key1 (some ⟨List.replicate 64 3, false⟩), none⟩ := by
  refine ⟨by decide, by unfold FullKey; decide, _, rfl, by unfold FullSig; decide⟩
example : SaneCoinOutput ⟨⟨some ⟨false, 25, -1⟩⟩, .lockTime 500 (.unlockHash ⟨1, ⟨List.replicate 32 1⟩⟩), ⟨[]⟩⟩ := by
  refine ⟨⟨⟨rfl, by decide⟩, by decide⟩, ?_, by decide, .inl ⟨by decide, by decide⟩⟩
  decide

/-- **C36** (finding). A coin input without parent id comes back with a different binary encoding, and so does an output of 29 digits
(the amount changes). -/
theorem C36_io_json_false (H : Bytes → Bytes) :
    (∃ ci x : CoinInput, CoinInput.fromJson ci.json = .ok x ∧ siaAdd x.val ≠ siaAdd ci.val ∧ FullFulfillment ci.fulfillment) ∧
    (∃ co x : CoinOutput, CoinOutput.fromJson H (co.json H) = .ok x ∧ siaAdd x.val ≠ siaAdd co.val ∧ GoodCurrency co.value) := by
  constructor
  · refine ⟨⟨⟨[]⟩, .single key1 (some ⟨List.replicate 64 3, false⟩), none⟩,
      ⟨⟨List.replicate 32 0⟩, .single key1 (some ⟨List.replicate 64 3, false⟩), none⟩, ?_, by decide +kernel,
      by unfold FullKey; decide, _, rfl, by unfold FullSig; decide⟩
    decide +kernel
  · refine ⟨⟨⟨some ⟨false, 10^28 + 1, -9⟩⟩, .nil, ⟨[]⟩⟩, ⟨⟨some ⟨false, 10^27, -8⟩⟩, .nil, ⟨[]⟩⟩, ?_, by decide +kernel, rfl, by decide⟩
    have : CoinOutput.json H ⟨⟨some ⟨false, 10^28 + 1, -9⟩⟩, .nil, ⟨[]⟩⟩ =
      CoinOutput.json (fun _ => []) ⟨⟨some ⟨false, 10^28 + 1, -9⟩⟩, .nil, ⟨[]⟩⟩ := rfl
    rw [this]
    rfl

/-! ## C40 -/

/-! ### Fields of a dict -/

theorem jget_cons (k k' : String) (v : Json) (l : List (String × Json)) :
    jget ((k', v) :: l) k = if k' == k then some v else jget l k := by
  unfold jget
  rw [List.find?_cons]
  cases h : (k' == k) <;> simp
@[simp] theorem jget_nil (k : String) : jget [] k = none := rfl
theorem jget_append (k : String) (l l' : List (String × Json)) : jget (l ++ l') k = (jget l k).or (jget l' k) := by
  induction l with
  | nil => simp
  | cons p l ih =>
    obtain ⟨k', v⟩ := p
    rw [List.cons_append, jget_cons, jget_cons, ih]
    split <;> simp

/-- Removing the falsy values of a dict. -/
theorem jget_filter (k : String) (l : List (String × Json)) (hn : (l.map (·.1)).Nodup) :
    jget (l.filter fun p => p.2.truthy) k = (jget l k).filter Json.truthy := by
  induction l with
  | nil => rfl
  | cons p l ih =>
    obtain ⟨k', v⟩ := p
    simp only [List.map_cons, List.nodup_cons] at hn
    have ih := ih hn.2
    rw [List.filter_cons, jget_cons]
    by_cases hk : (k' == k) = true
    · rw [if_pos hk]
      by_cases ht : v.truthy = true
      · rw [if_pos ht, jget_cons, if_pos hk]; simp [Option.filter, ht]
      · rw [if_neg ht]
        have hk' : k' = k := by simpa using hk
        have hnone : jget l k = none := by
          unfold jget
          rw [Option.map_eq_none_iff, List.find?_eq_none]
          intro p hp hpk
          have hpk' : p.1 = k := by simpa using hpk
          exact hn.1 (List.mem_map.2 ⟨p, hp, by rw [hpk', hk']⟩)
        rw [ih, hnone]
        simp [Option.filter, ht]
    · rw [if_neg hk]
      split
      · rw [jget_cons, if_neg hk, ih]
      · rw [ih]

theorem listField_arr {l : List (String × Json)} {k : String} {xs : List Json}
    (h : jget l k = some (.arr xs) ∨ (jget l k = none ∧ xs = [])) : (Json.obj l).listField k = .ok xs := by
  rcases h with h | ⟨h, rfl⟩
  · unfold Json.listField
    simp only [Json.get?, h, bind, Except.bind, pure, Except.pure, Json.truthy, Json.iter]
    cases xs <;> simp
  · unfold Json.listField
    simp only [Json.get?, h, bind, Except.bind, pure, Except.pure]

theorem optField_some {α : Type} {l : List (String × Json)} {k : String} {v : Json} (f : Json → Res α) (h : jget l k = some v) :
    optField (.obj l) k f = (f v).map some := by
  unfold optField
  simp only [Json.has, Json.idx, h, Option.isSome_some, bind, Except.bind, pure, Except.pure, if_true]
  cases f v <;> rfl
theorem optField_none {α : Type} {l : List (String × Json)} {k : String} (f : Json → Res α) (h : jget l k = none) :
    optField (.obj l) k f = .ok none := by
  unfold optField
  simp [Json.has, h, bind, Except.bind, pure, Except.pure]

theorem intField_int {l : List (String × Json)} {k : String} {i : Int} (h : jget l k = some (.int i)) : intField (.obj l) k = .ok i := by
  unfold intField Json.orDefault
  simp only [Json.get?, h, bind, Except.bind, pure, Except.pure, Json.truthy]
  by_cases hi : i = 0
  · subst hi; rfl
  · simp [hi, Json.toInt]

theorem getD_some {l : List (String × Json)} {k : String} {v d : Json} (h : jget l k = some v) : (Json.obj l).getD k d = .ok v := by
  unfold Json.getD
  simp [Json.get?, h, bind, Except.bind, pure, Except.pure]
theorem getD_none {l : List (String × Json)} {k : String} {d : Json} (h : jget l k = none) : (Json.obj l).getD k d = .ok d := by
  unfold Json.getD
  simp [Json.get?, h, bind, Except.bind, pure, Except.pure]

theorem orDefault_some {l : List (String × Json)} {k : String} {v d : Json} (h : jget l k = some v) :
    (Json.obj l).orDefault k d = .ok (if v.truthy then v else d) := by
  unfold Json.orDefault
  simp [Json.get?, h, bind, Except.bind, pure, Except.pure]
theorem orDefault_none {l : List (String × Json)} {k : String} {d : Json} (h : jget l k = none) :
    (Json.obj l).orDefault k d = .ok d := by
  unfold Json.orDefault
  simp [Json.get?, h, bind, Except.bind, pure, Except.pure]

theorem b64_json (b : Bytes) : base64OfJson (.str (StrEnc.base64.toStr b)) = .ok b := by
  have := C11_binary_data_text_roundtrip ⟨b, none, .base64⟩ (by simp)
  simp only [base64OfJson]
  simp only [BinData.str, Option.map_none] at this
  rw [this]; rfl

/-- `arbitrarydata` comes back, present or not. -/
theorem data_back {l : List (String × Json)} {k : String} {b : Bytes}
    (h : jget l k = some (.str (StrEnc.base64.toStr b)) ∨ (jget l k = none ∧ b = [])) :
    ∃ v, (Json.obj l).orDefault k (.str []) = .ok v ∧ base64OfJson v = .ok b := by
  rcases h with h | ⟨h, rfl⟩
  · refine ⟨_, orDefault_some h, ?_⟩
    split
    · exact b64_json b
    · rename_i ht
      have : StrEnc.base64.toStr b = [] := by
        cases hb : StrEnc.base64.toStr b with
        | nil => rfl
        | cons c cs => rw [hb] at ht; simp [Json.truthy] at ht
      rw [strenc_toStr_eq_nil _ _ this]; rfl
  · exact ⟨_, orDefault_none h, rfl⟩

theorem mapM_back {α β : Type} (f : β → Res α) (g : α → β) (n : α → α) (l : List α) (h : ∀ a ∈ l, f (g a) = .ok (n a)) :
    (l.map g).mapM f = .ok (l.map n) := by
  induction l with
  | nil => rfl
  | cons a l ih =>
    rw [List.map_cons, List.mapM_cons, h a (by simp), ih (fun b hb => h b (by simp [hb]))]
    rfl

theorem map_back {α β : Type} (g : α → β) (n : α → α) (l : List α) (h : ∀ a ∈ l, g (n a) = g a) : (l.map n).map g = l.map g := by
  rw [List.map_map]
  exact List.map_congr_left h

theorem jget_refund (H : Bytes → Bytes) (r : Option CoinOutput) (k : String) :
    jget (refundField H r) k = if k = "refundcoinoutput" then r.map (CoinOutput.json H) else none := by
  cases r with
  | none => simp [refundField]
  | some co =>
    simp only [refundField, jget_cons, jget_nil, beq_iff_eq, Option.map_some]
    by_cases h : k = "refundcoinoutput"
    · subst h; simp
    · rw [if_neg h, if_neg (fun e => h e.symm)]

theorem refund_back {H : Bytes → Bytes} (hH : Digest32 H) {l : List (String × Json)} {r : Option CoinOutput}
    (hr : ∀ x ∈ r, SaneCoinOutput x) (h : jget l "refundcoinoutput" = r.map (CoinOutput.json H)) :
    optField (.obj l) "refundcoinoutput" (CoinOutput.fromJson H) = .ok (r.map backOut) := by
  cases r with
  | none => exact optField_none _ h
  | some co => rw [optField_some _ h, coinOutput_json hH (hr co rfl)]; rfl

theorem cur_back {l : List (String × Json)} {k : String} {c : Currency} (hc : SaneAmount c) (h : jget l k = some (.str c.json)) :
    optField (.obj l) k currencyOfJson = .ok (some (backCur c)) := by
  rw [optField_some _ h, cur_json hc]; rfl

theorem refundRiv_back {r : Option CoinOutput} (hr : ∀ x ∈ r, SaneCoinOutput x) : refundRiv (r.map backOut) = refundRiv r := by
  cases r with
  | none => rfl
  | some co => simp only [Option.map_some, refundRiv, backOut_val (hr co rfl)]
theorem refundOnly_back {r : Option CoinOutput} (hr : ∀ x ∈ r, SaneCoinOutput x) : refundOnly (r.map backOut) = refundOnly r := by
  cases r with
  | none => rfl
  | some co => simp only [Option.map_some, refundOnly, backOut_val (hr co rfl)]
theorem refundField_back {H : Bytes → Bytes} {r : Option CoinOutput} (hr : ∀ x ∈ r, SaneCoinOutput x) :
    refundField H (r.map backOut) = refundField H r := by
  cases r with
  | none => rfl
  | some co => simp only [Option.map_some, refundField, backOut_json (hr co rfl)]

theorem fee_val {c : Option Currency} (h : SaneAmount (feeOr c)) : (feeOr (some (backCur (feeOr c)))).toVal = (feeOr c).toVal :=
  backCur_val h.1
theorem fee_json {c : Option Currency} (h : SaneAmount (feeOr c)) : (feeOr (some (backCur (feeOr c)))).json = (feeOr c).json :=
  backCur_json h.1

theorem sig_back {s : Signature} (h : s.value.length = 64) (b : Bool) : Signature.fromJson (.str s.str) b = .ok ⟨s.value, b⟩ := by
  have hne : s.str ≠ [] := by
    intro h'; have := congrArg List.length h'; simp [Signature.str, toHex_length, h] at this
  unfold Signature.fromJson
  simp only [if_neg hne]
  unfold Signature.new BinData.new BinData.set BVal.norm StrEnc.fromStr Signature.str
  simp only [fromHex_toHex]
  simp [bind, Except.bind, pure, Except.pure, h]

theorem name_back {n : BotName} (h : MadeName n) : BotName.fromJson (nameJson n) = .ok n := by
  obtain ⟨v⟩ := n
  rcases h with h | ⟨s, h⟩
  · simp only at h; subst h; rfl
  · have hs : v = s := (C67_bot_name_partial s).1 _ h
    subst hs
    simp only [BotName.fromJson, nameJson]
    split
    · rename_i e; subst e; rfl
    · exact h

theorem net_back {L : IpLib} (hL : LawfulIp L) {a : NetAddr} (h : MadeNet L a) : NetAddr.fromJson L (netJson L a) = .ok a := by
  obtain ⟨v, hv, h⟩ := h
  exact C66_net_address_json L hL v hv a h

theorem coinIns_back {l : List CoinInput} (h : ∀ x ∈ l, FullCoinInput x) :
    (l.map CoinInput.json).mapM CoinInput.fromJson = .ok (l.map backIn) := mapM_back _ _ _ _ fun a ha => coinInput_json (h a ha)
theorem coinOuts_back {H : Bytes → Bytes} (hH : Digest32 H) {l : List CoinOutput} (h : ∀ x ∈ l, SaneCoinOutput x) :
    (l.map (CoinOutput.json H)).mapM (CoinOutput.fromJson H) = .ok (l.map backOut) :=
  mapM_back _ _ _ _ fun a ha => coinOutput_json hH (h a ha)
theorem fees_back {l : List Currency} (h : ∀ x ∈ l, SaneAmount x) :
    (l.map fun c => Json.str c.json).mapM currencyOfJson = .ok (l.map backCur) := mapM_back _ _ _ _ fun a ha => cur_json (h a ha)

theorem coinIns_val (l : List CoinInput) : (l.map backIn).map CoinInput.val = l.map CoinInput.val := map_back _ _ _ fun _ _ => rfl
theorem coinIns_json (l : List CoinInput) : (l.map backIn).map CoinInput.json = l.map CoinInput.json := map_back _ _ _ fun _ _ => rfl
theorem coinIns_ids (l : List CoinInput) : (l.map backIn).map (·.parentId) = l.map (·.parentId) := map_back _ _ _ fun _ _ => rfl
theorem coinOuts_val {l : List CoinOutput} (h : ∀ x ∈ l, SaneCoinOutput x) : (l.map backOut).map CoinOutput.val = l.map CoinOutput.val :=
  map_back _ _ _ fun a ha => backOut_val (h a ha)
theorem coinOuts_json {H : Bytes → Bytes} {l : List CoinOutput} (h : ∀ x ∈ l, SaneCoinOutput x) :
    (l.map backOut).map (CoinOutput.json H) = l.map (CoinOutput.json H) := map_back _ _ _ fun a ha => backOut_json (h a ha)
theorem fees_val {l : List Currency} (h : ∀ x ∈ l, SaneAmount x) : (l.map backCur).map Currency.toVal = l.map Currency.toVal :=
  map_back _ _ _ fun a ha => backCur_val (h a ha).1
theorem fees_json {l : List Currency} (h : ∀ x ∈ l, SaneAmount x) :
    ((l.map backCur).map fun c => Json.str c.json) = l.map fun c => Json.str c.json :=
  map_back _ _ _ fun a ha => by rw [backCur_json (h a ha).1]

/-- The whole of **C40** for one transaction and what it is read back as: it has a JSON form, which is read back as a transaction of the same
version with the same JSON form and the same signature preimages, and (`bin`) the same binary encoding. -/
def SurvivesAs (L : IpLib) (H : Bytes → Bytes) (t t' : Tx) (bin : Prop) : Prop :=
  ∃ j, t.json L H = .ok j ∧ Tx.fromJson L H j = .ok t' ∧ t'.version = t.version ∧ t'.json L H = .ok j ∧
    (∀ extras, t'.sigInput H extras = t.sigInput H extras) ∧ (bin → t'.binaryEncode H = t.binaryEncode H)
@[inherit_doc SurvivesAs]
def Survives (L : IpLib) (H : Bytes → Bytes) (t : Tx) (bin : Prop) : Prop :=
  ∃ j t', t.json L H = .ok j ∧ Tx.fromJson L H j = .ok t' ∧ t'.version = t.version ∧ t'.json L H = .ok j ∧
    (∀ extras, t'.sigInput H extras = t.sigInput H extras) ∧ (bin → t'.binaryEncode H = t.binaryEncode H)
theorem SurvivesAs.survives {L : IpLib} {H : Bytes → Bytes} {t t' : Tx} {bin : Prop} (h : SurvivesAs L H t t' bin) : Survives L H t bin := by
  obtain ⟨j, h⟩ := h; exact ⟨j, t', h⟩

/-- Reading back the JSON form is reading back the fields. -/
theorem survives_as (L : IpLib) (H : Bytes → Bytes) (t t' : Tx) (bin : Prop) (fields : List (String × Json))
    (h1 : t.jsonFields L H = .ok fields) (h2 : t'.jsonFields L H = .ok fields) (hv : t'.version = t.version)
    (h3 : ∀ n : Nat, n = t.version → Tx.fromJson L H (.obj [("version", .ver n), ("data", .obj fields)]) = .ok t')
    (h3' : fields = [] → Tx.fromJson L H (.obj [("version", .ver t.version)]) = .ok t')
    (h4 : ∀ extras, t'.sigInput H extras = t.sigInput H extras) (h5 : bin → t'.binaryEncode H = t.binaryEncode H) :
    SurvivesAs L H t t' bin := by
  by_cases hf : fields = []
  · refine ⟨.obj [("version", .ver t.version)], ?_, h3' hf, hv, ?_, h4, h5⟩
    · simp [Tx.json, h1, hf, bind, Except.bind, pure, Except.pure]
    · simp [Tx.json, h2, hf, hv, bind, Except.bind, pure, Except.pure]
  · refine ⟨.obj [("version", .ver t.version), ("data", .obj fields)], ?_, h3 _ rfl, hv, ?_, h4, h5⟩
    · simp [Tx.json, h1, hf, bind, Except.bind, pure, Except.pure]
    · simp [Tx.json, h2, hf, hv, bind, Except.bind, pure, Except.pure]
@[inherit_doc survives_as]
theorem survives_of (L : IpLib) (H : Bytes → Bytes) (t t' : Tx) (bin : Prop) (fields : List (String × Json))
    (h1 : t.jsonFields L H = .ok fields) (h2 : t'.jsonFields L H = .ok fields) (hv : t'.version = t.version)
    (h3 : ∀ n : Nat, n = t.version → Tx.fromJson L H (.obj [("version", .ver n), ("data", .obj fields)]) = .ok t')
    (h3' : fields = [] → Tx.fromJson L H (.obj [("version", .ver t.version)]) = .ok t')
    (h4 : ∀ extras, t'.sigInput H extras = t.sigInput H extras) (h5 : bin → t'.binaryEncode H = t.binaryEncode H) :
    Survives L H t bin := (survives_as L H t t' bin fields h1 h2 hv h3 h3' h4 h5).survives

theorem ver_getD (n : Nat) (d : List (String × Json)) :
    (Json.obj (("version", .ver n) :: d)).getD "version" (.int (-1)) = .ok (.ver n) := getD_some (by simp [jget_cons])
theorem data_getD (n : Nat) (d : Json) : (Json.obj [("version", .ver n), ("data", d)]).getD "data" (.obj []) = .ok d :=
  getD_some (by simp [jget_cons])
theorem nodata_getD (n : Nat) : (Json.obj [("version", .ver n)]).getD "data" (.obj []) = .ok (.obj []) :=
  getD_none (by simp [jget_cons])

/-- A transaction as it comes back. -/
def backV1 (t : TxV1) : TxV1 :=
  { coinInputs := t.coinInputs.map backIn, coinOutputs := t.coinOutputs.map backOut,
    stakeInputs := t.stakeInputs.map backStakeIn, stakeOutputs := t.stakeOutputs.map backStake, minerFees := t.minerFees.map backCur,
    data := t.data }

theorem v1_as (L : IpLib) (H : Bytes → Bytes) (hH : Digest32 H) (t : TxV1) (ht : FullTx L (.v1 t)) : SurvivesAs L H (.v1 t) (.v1 (backV1 t)) True := by
  obtain ⟨hl, hci, hco, hsi, hso, hmf⟩ := ht
  let t' : TxV1 := { coinInputs := t.coinInputs.map backIn, coinOutputs := t.coinOutputs.map backOut,
                     stakeInputs := t.stakeInputs.map backStakeIn, stakeOutputs := t.stakeOutputs.map backStake, minerFees := t.minerFees.map backCur,
                     data := t.data }
  have esi : (t.stakeInputs.map backStakeIn).map StakeInput.json = t.stakeInputs.map StakeInput.json := map_back _ _ _ fun _ _ => rfl
  have eso : (t.stakeOutputs.map backStake).map (StakeOutput.json H) = t.stakeOutputs.map (StakeOutput.json H) :=
    map_back _ _ _ fun _ _ => rfl
  have esv : (t.stakeInputs.map backStakeIn).map StakeInput.val = t.stakeInputs.map StakeInput.val := map_back _ _ _ fun _ _ => rfl
  have esov : (t.stakeOutputs.map backStake).map StakeOutput.val = t.stakeOutputs.map StakeOutput.val := map_back _ _ _ fun _ _ => rfl
  have esid : (t.stakeInputs.map backStakeIn).map (·.parentId) = t.stakeInputs.map (·.parentId) := map_back _ _ _ fun _ _ => rfl
  have key : ∀ (k : String) (xs : List Json), jget [("coininputs", .arr (t.coinInputs.map CoinInput.json)), ("coinoutputs", .arr (t.coinOutputs.map (CoinOutput.json H))),
   ("blockstakeinputs", .arr (t.stakeInputs.map StakeInput.json)), ("blockstakeoutputs", .arr (t.stakeOutputs.map (StakeOutput.json H))),
   ("minerfees", .arr (t.minerFees.map fun c => .str c.json)), ("arbitrarydata", .str (StrEnc.base64.toStr t.data))] k = some (.arr xs) →
      (Json.obj (t.jsonFields H)).listField k = .ok xs := by
    intro k xs hk
    apply listField_arr
    unfold TxV1.jsonFields
    rw [jget_filter _ _ (by simp), hk]
    cases xs <;> simp [Json.truthy, Option.filter]
  have hof : TxV1.ofJson H (.obj (t.jsonFields H)) = .ok t' := by
    obtain ⟨v, hv1, hv2⟩ := data_back (l := t.jsonFields H) (k := "arbitrarydata") (b := t.data) (by
      unfold TxV1.jsonFields
      rw [jget_filter _ _ (by simp)]
      simp only [jget_cons]
      simp
      cases hb : StrEnc.base64.toStr t.data with
      | nil => right; exact ⟨by simp [Json.truthy], strenc_toStr_eq_nil _ _ hb⟩
      | cons c cs => left; simp [Json.truthy])
    unfold TxV1.ofJson
    rw [key "coininputs" _ (by simp [jget_cons]; rfl), key "coinoutputs" _ (by simp [jget_cons]; rfl), key "blockstakeinputs" _ (by simp [jget_cons]; rfl),
      key "blockstakeoutputs" _ (by simp [jget_cons]; rfl), key "minerfees" _ (by simp [jget_cons]; rfl), hv1]
    simp only [bind, Except.bind, coinIns_back hci, coinOuts_back hH hco, fees_back hmf, hv2, pure, Except.pure]
    rw [mapM_back _ _ _ _ fun a ha => stakeInput_json (hsi a ha), mapM_back _ _ _ _ fun a ha => stakeOutput_json hH (hso a ha)]
  have hfields : t'.jsonFields H = t.jsonFields H := by
    unfold TxV1.jsonFields
    simp only [t', coinIns_json, coinOuts_json hco, esi, eso, fees_json hmf]
  refine survives_as L H _ (.v1 t') _ _ rfl ?_ rfl ?_ ?_ ?_ ?_
  · simp only [Tx.jsonFields, hfields]
  · intro n hn
    have hn : n = 1 := hn
    subst hn
    simp only [Tx.fromJson, ver_getD, data_getD, Json.asInt?, bind, Except.bind, hof, pure, Except.pure]
    rfl
  · intro he
    rw [he] at hof
    simp only [Tx.fromJson, ver_getD, nodata_getD, Json.asInt?, bind, Except.bind, hof, pure, Except.pure]
    rfl
  · intro extras
    simp only [Tx.sigInput, TxV1.sigInput, hl, t', coinIns_ids, coinOuts_val hco, esid, esov, fees_val hmf]
    simp
  · intro _
    simp only [Tx.binaryEncode, TxV1.binaryData, hl, t', coinIns_val, coinOuts_val hco, esv, esov, fees_val hmf]
    simp

theorem v1_survives (L : IpLib) (H : Bytes → Bytes) (hH : Digest32 H) (t : TxV1) (ht : FullTx L (.v1 t)) : Survives L H (.v1 t) True :=
  (v1_as L H hH t ht).survives

theorem v128_survives (L : IpLib) (H : Bytes → Bytes) (hH : Digest32 H) (t : TxV128) (ht : FullTx L (.v128 t)) :
    Survives L H (.v128 t) True := by
  obtain ⟨⟨f, hf, hff⟩, hc, hmf⟩ := ht
  let t' : TxV128 := { nonce := t.nonce, mintFulfillment := some f, mintCondition := t.mintCondition,
                       minerFees := t.minerFees.map backCur, data := t.data }
  have hof : TxV128.ofJson H (.obj (t.jsonFields H)) = .ok t' := by
    obtain ⟨v, hv1, hv2⟩ := data_back (l := t.jsonFields H) (k := "arbitrarydata") (b := t.data)
      (by left; simp [TxV128.jsonFields, jget_cons])
    unfold TxV128.ofJson
    rw [getD_some (l := t.jsonFields H) (k := "nonce") (by simp [TxV128.jsonFields, jget_cons]; rfl),
      getD_some (l := t.jsonFields H) (k := "mintcondition") (by simp [TxV128.jsonFields, jget_cons]; rfl),
      getD_some (l := t.jsonFields H) (k := "mintfulfillment") (by simp [TxV128.jsonFields, jget_cons]; rfl),
      listField_arr (l := t.jsonFields H) (k := "minerfees") (.inl (by simp [TxV128.jsonFields, jget_cons]; rfl)), hv1]
    simp only [bind, Except.bind, fees_back hmf, hv2, pure, Except.pure, b64_json, C28_condition_json_partial H hH _ hc, hf, Option.getD_some,
      C35_fulfillment_json_partial _ hff, t']
  have hfields : t'.jsonFields H = t.jsonFields H := by
    unfold TxV128.jsonFields
    simp only [t', fees_json hmf, hf]
  refine survives_of L H _ (.v128 t') _ _ rfl ?_ rfl ?_ ?_ ?_ ?_
  · simp only [Tx.jsonFields, hfields]
  · intro n hn
    have hn : n = 128 := hn
    subst hn
    simp only [Tx.fromJson, ver_getD, data_getD, Json.asInt?, bind, Except.bind, hof, pure, Except.pure]
    rfl
  · intro he
    simp [TxV128.jsonFields] at he
  · intro extras
    simp only [Tx.sigInput, TxV128.sigInput, t', fees_val hmf]
  · intro _
    simp only [Tx.binaryEncode, Tx.binaryData, TxV128.binaryData, t', fees_val hmf, hf]
    rfl

theorem v129_survives (L : IpLib) (H : Bytes → Bytes) (hH : Digest32 H) (t : TxV129) (ht : FullTx L (.v129 t)) :
    Survives L H (.v129 t) True := by
  obtain ⟨⟨f, hf, hff⟩, hco, hmf⟩ := ht
  let t' : TxV129 := { nonce := t.nonce, mintFulfillment := some f, coinOutputs := t.coinOutputs.map backOut,
                       minerFees := t.minerFees.map backCur, data := t.data }
  have hof : TxV129.ofJson H (.obj (t.jsonFields H)) = .ok t' := by
    obtain ⟨v, hv1, hv2⟩ := data_back (l := t.jsonFields H) (k := "arbitrarydata") (b := t.data)
      (by left; simp [TxV129.jsonFields, jget_cons])
    unfold TxV129.ofJson
    rw [getD_some (l := t.jsonFields H) (k := "nonce") (by simp [TxV129.jsonFields, jget_cons]; rfl),
      getD_some (l := t.jsonFields H) (k := "mintfulfillment") (by simp [TxV129.jsonFields, jget_cons]; rfl),
      listField_arr (l := t.jsonFields H) (k := "coinoutputs") (.inl (by simp [TxV129.jsonFields, jget_cons]; rfl)),
      listField_arr (l := t.jsonFields H) (k := "minerfees") (.inl (by simp [TxV129.jsonFields, jget_cons]; rfl)), hv1]
    simp only [bind, Except.bind, fees_back hmf, hv2, pure, Except.pure, b64_json, coinOuts_back hH hco, hf, Option.getD_some,
      C35_fulfillment_json_partial _ hff, t']
  have hfields : t'.jsonFields H = t.jsonFields H := by
    unfold TxV129.jsonFields
    simp only [t', fees_json hmf, hf, coinOuts_json hco]
  refine survives_of L H _ (.v129 t') _ _ rfl ?_ rfl ?_ ?_ ?_ ?_
  · simp only [Tx.jsonFields, hfields]
  · intro n hn
    have hn : n = 129 := hn
    subst hn
    simp only [Tx.fromJson, ver_getD, data_getD, Json.asInt?, bind, Except.bind, hof, pure, Except.pure]
    rfl
  · intro he
    simp [TxV129.jsonFields] at he
  · intro extras
    simp only [Tx.sigInput, TxV129.sigInput, t', fees_val hmf, coinOuts_val hco]
  · intro _
    simp only [Tx.binaryEncode, Tx.binaryData, TxV129.binaryData, t', fees_val hmf, hf, coinOuts_val hco]
    rfl

theorem jget_listField {α : Type} (k k' : String) (f : α → Json) (l : List α) :
    jget (listField? k' f l) k = if k = k' then (if l.isEmpty then none else some (.arr (l.map f))) else none := by
  unfold listField?
  cases l with
  | nil => simp
  | cons a l =>
    simp only [List.isEmpty_cons, jget_cons, jget_nil, beq_iff_eq]
    by_cases h : k = k'
    · subst h; simp [jget_cons]
    · have : ¬ k' = k := fun e => h e.symm
      simp [h, this, jget_cons]

theorem v144_survives (L : IpLib) (hL : LawfulIp L) (H : Bytes → Bytes) (hH : Digest32 H) (t : TxV144) (ht : FullTx L (.v144 t)) :
    Survives L H (.v144 t) True := by
  obtain ⟨had, hnm, hfee, hci, hr, ⟨k, hk, hk'⟩, s, hs, hs'⟩ := ht
  let t' : TxV144 := { addresses := t.addresses, names := t.names, months := t.months, fee := some (backCur (feeOr t.fee)),
                       coinInputs := t.coinInputs.map backIn, refund := t.refund.map backOut, key := some k, sig := some s }
  generalize hF : [("nrofmonths", Json.int t.months), ("txfee", .str (feeOr t.fee).json),
      ("coininputs", .arr (t.coinInputs.map CoinInput.json)),
      ("identification", .obj [("publickey", .str k.str), ("signature", .str s.str)])] ++
      listField? "addresses" (netJson L) t.addresses ++ listField? "names" nameJson t.names ++ refundField H t.refund = F
  have hj : t.jsonFields L H = .ok F := by unfold TxV144.jsonFields; simp only [hk, hs, hF]
  have hj' : t'.jsonFields L H = .ok F := by
    unfold TxV144.jsonFields
    simp only [t', coinIns_json, fee_json hfee, refundField_back hr, hF]
  have hlist : ∀ (k : String) (xs : List Json), (jget F k = some (.arr xs) ∨ (jget F k = none ∧ xs = [])) →
      (Json.obj F).listField k = .ok xs := fun k xs h => listField_arr h
  have hof : TxV144.ofJson L H (.obj F) = .ok t' := by
    have e1 : (Json.obj F).listField "addresses" = .ok (t.addresses.map (netJson L)) := by
      apply hlist; rw [← hF]; simp [jget_append, jget_cons, jget_listField, jget_refund]
      cases t.addresses <;> simp
    have e2 : (Json.obj F).listField "names" = .ok (t.names.map nameJson) := by
      apply hlist; rw [← hF]; simp [jget_append, jget_cons, jget_listField, jget_refund]
      cases t.names <;> simp
    have e3 : intField (.obj F) "nrofmonths" = .ok t.months := intField_int (by rw [← hF]; simp [jget_append, jget_cons])
    have e4 := cur_back (l := F) (k := "txfee") hfee (by rw [← hF]; simp [jget_append, jget_cons])
    have e5 : (Json.obj F).listField "coininputs" = .ok (t.coinInputs.map CoinInput.json) := by
      apply hlist; rw [← hF]; simp [jget_append, jget_cons]
    have e6 := refund_back hH (l := F) hr (by rw [← hF]; simp [jget_append, jget_cons, jget_listField, jget_refund])
    have e7 := getD_some (l := F) (k := "identification") (d := .null) (v := .obj [("publickey", .str k.str), ("signature", .str s.str)])
      (by rw [← hF]; simp [jget_append, jget_cons])
    unfold TxV144.ofJson
    rw [e1, e2, e3, e4, e5, e6, e7]
    simp only [bind, Except.bind, pure, Except.pure, coinIns_back hci]
    rw [mapM_ok _ _ _ fun a ha => net_back hL (had a ha), mapM_ok _ _ _ fun a ha => name_back (hnm a ha)]
    simp only [Json.isNullOrEmpty, Json.idx, jget_cons, key_json hk']
    have : Signature.fromJson (.str s.str) true = .ok s := by rw [sig_back hs'.1, ← hs'.2]
    simp [this, t', key_json hk']
  refine survives_of L H _ (.v144 t') _ _ hj hj' rfl ?_ ?_ ?_ ?_
  · intro n hn
    have hn : n = 144 := hn
    subst hn
    simp only [Tx.fromJson, ver_getD, data_getD, Json.asInt?, bind, Except.bind, hof, pure, Except.pure]
    rfl
  · intro he
    rw [← hF] at he
    simp at he
  · intro extras
    simp only [Tx.sigInput, TxV144.sigInput, t', fee_val hfee, coinIns_ids, refundRiv_back hr, hk]
  · intro _
    simp only [Tx.binaryEncode, Tx.binaryData, TxV144.binaryData, t', fee_val hfee, coinIns_val, refundOnly_back hr, hk, hs, Option.isSome_map]
    rfl

theorem jget_addRemove {α : Type} (k k' : String) (f : α → Json) (a r : List α) :
    jget (addRemoveField k' f a r) k = if k = k' ∧ (listField? "add" f a ++ listField? "remove" f r) ≠ [] then
      some (.obj (listField? "add" f a ++ listField? "remove" f r)) else none := by
  unfold addRemoveField
  split
  · rename_i h; simp [h]
  · rename_i h
    simp only [jget_cons, jget_nil, beq_iff_eq]
    by_cases hk : k = k'
    · subst hk
      rw [if_pos rfl, if_pos ⟨rfl, by intro e; exact h e⟩]
    · rw [if_neg (fun e => hk e.symm), if_neg (fun e => hk e.1)]

/-- The `add` and `remove` lists of a field come back. -/
theorem addRemove_back {α : Type} {F : List (String × Json)} {k : String} {f : α → Json} {a r : List α}
    (h : jget F k = jget (addRemoveField k f a r) k) :
    ∃ x, (Json.obj F).orDefault k (.obj []) = .ok x ∧ x.listField "add" = .ok (a.map f) ∧ x.listField "remove" = .ok (r.map f) := by
  rw [jget_addRemove] at h
  by_cases he : (listField? "add" f a ++ listField? "remove" f r) = []
  · rw [if_neg (fun x => x.2 he)] at h
    refine ⟨.obj [], orDefault_none h, ?_, ?_⟩
    · have : a = [] := by cases a with
        | nil => rfl
        | cons => simp [listField?] at he
      subst this; rfl
    · have : r = [] := by cases r with
        | nil => rfl
        | cons => simp [listField?] at he
      subst this; rfl
  · rw [if_pos ⟨rfl, he⟩] at h
    refine ⟨.obj (listField? "add" f a ++ listField? "remove" f r), ?_, ?_, ?_⟩
    · rw [orDefault_some h]
      have : (Json.obj (listField? "add" f a ++ listField? "remove" f r)).truthy = true := by
        simp only [Json.truthy]
        cases hh : listField? "add" f a ++ listField? "remove" f r with
        | nil => exact absurd hh he
        | cons => rfl
      rw [if_pos this]
    · apply listField_arr
      simp only [jget_append, jget_listField]
      cases a <;> simp
    · apply listField_arr
      simp only [jget_append, jget_listField]
      cases r <;> simp

theorem v145_survives (L : IpLib) (hL : LawfulIp L) (H : Bytes → Bytes) (hH : Digest32 H) (t : TxV145) (ht : FullTx L (.v145 t)) :
    Survives L H (.v145 t) False := by
  obtain ⟨haa, har, hna, hnr, hfee, hci, hr, s, hs, hs'⟩ := ht
  let t' : TxV145 := { botid := some (t.botid.getD 0), addrsAdd := t.addrsAdd, addrsRemove := t.addrsRemove, namesAdd := t.namesAdd,
                       namesRemove := t.namesRemove, months := t.months, fee := some (backCur (feeOr t.fee)),
                       coinInputs := t.coinInputs.map backIn, refund := t.refund.map backOut, sig := some ⟨s.value, false⟩ }
  have hfields : t'.jsonFields L H = t.jsonFields L H := by
    unfold TxV145.jsonFields
    simp only [t', coinIns_json, fee_json hfee, refundField_back hr, hs, sigOr, Option.getD_some, Signature.str]
  have hof : TxV145.ofJson L H (.obj (t.jsonFields L H)) = .ok t' := by
    obtain ⟨x, hx1, hx2, hx3⟩ := addRemove_back (F := t.jsonFields L H) (k := "addresses") (f := netJson L) (a := t.addrsAdd) (r := t.addrsRemove)
      (by simp [TxV145.jsonFields, jget_append, jget_cons, jget_addRemove, jget_refund])
    obtain ⟨y, hy1, hy2, hy3⟩ := addRemove_back (F := t.jsonFields L H) (k := "names") (f := nameJson) (a := t.namesAdd) (r := t.namesRemove)
      (by simp [TxV145.jsonFields, jget_append, jget_cons, jget_addRemove, jget_refund])
    have e0 : intField (.obj (t.jsonFields L H)) "id" = .ok (t.botid.getD 0) :=
      intField_int (by simp [TxV145.jsonFields, jget_append, jget_cons])
    have e3 : intField (.obj (t.jsonFields L H)) "nrofmonths" = .ok t.months :=
      intField_int (by simp [TxV145.jsonFields, jget_append, jget_cons])
    have e4 := cur_back (l := t.jsonFields L H) (k := "txfee") hfee (by simp [TxV145.jsonFields, jget_append, jget_cons])
    have e5 : (Json.obj (t.jsonFields L H)).listField "coininputs" = .ok (t.coinInputs.map CoinInput.json) :=
      listField_arr (.inl (by simp [TxV145.jsonFields, jget_append, jget_cons]))
    have e6 := refund_back hH (l := t.jsonFields L H) hr (by simp [TxV145.jsonFields, jget_append, jget_cons, jget_addRemove, jget_refund])
    have e7 := orDefault_some (l := t.jsonFields L H) (k := "signature") (d := .null) (v := .str s.str)
      (by simp [TxV145.jsonFields, jget_append, jget_cons, hs, sigOr])
    have hne : (Json.str s.str).truthy = true := by
      have := toHex_length s.value
      cases hh : s.str with
      | nil => have h0 : toHex s.value = [] := hh; rw [h0, hs'.1] at this; simp at this
      | cons => rfl
    rw [if_pos hne] at e7
    unfold TxV145.ofJson
    rw [e0, hx1, hy1, e3, e4, e5, e6, e7]
    simp only [bind, Except.bind, pure, Except.pure, coinIns_back hci, hx2, hx3, hy2, hy3]
    rw [mapM_ok _ _ _ fun a ha => net_back hL (haa a ha), mapM_ok _ _ _ fun a ha => net_back hL (har a ha),
      mapM_ok _ _ _ fun a ha => name_back (hna a ha), mapM_ok _ _ _ fun a ha => name_back (hnr a ha), sig_back hs'.1]
  refine survives_of L H _ (.v145 t') _ _ rfl ?_ rfl ?_ ?_ ?_ False.elim
  · simp only [Tx.jsonFields, hfields]
  · intro n hn
    have hn : n = 145 := hn
    subst hn
    simp only [Tx.fromJson, ver_getD, data_getD, Json.asInt?, bind, Except.bind, hof, pure, Except.pure]
    rfl
  · intro he
    simp [TxV145.jsonFields] at he
  · intro extras
    simp only [Tx.sigInput, TxV145.sigInput, t', fee_val hfee, coinIns_ids, refundRiv_back hr, Option.getD_some]

theorem sig_truthy {s : Signature} (h : s.value.length = 64) : (Json.str s.str).truthy = true := by
  have := toHex_length s.value
  cases hh : s.str with
  | nil => have h0 : toHex s.value = [] := hh; rw [h0, h] at this; simp at this
  | cons => rfl

theorem party_back {l : List (String × Json)} {i : Int} {s : Signature} (hs : s.value.length = 64)
    (h1 : jget l "id" = some (.int i)) (h2 : jget l "signature" = some (.str s.str)) :
    partyOfJson (.obj l) = .ok (i, ⟨s.value, false⟩) := by
  unfold partyOfJson
  rw [intField_int h1, orDefault_some h2, if_pos (sig_truthy hs)]
  simp only [bind, Except.bind, pure, Except.pure, sig_back hs]

theorem v146_survives (L : IpLib) (H : Bytes → Bytes) (hH : Digest32 H) (t : TxV146) (ht : FullTx L (.v146 t)) :
    Survives L H (.v146 t) False := by
  obtain ⟨hnm, hfee, ⟨l, hl, hci⟩, hr, ⟨s, hs, hs'⟩, r, hrr, hr'⟩ := ht
  let t' : TxV146 := { sender := some (t.sender.getD 0), receiver := some (t.receiver.getD 0), names := t.names,
                       fee := some (backCur (feeOr t.fee)), coinInputs := some (l.map backIn), refund := t.refund.map backOut,
                       senderSig := some ⟨s.value, false⟩, receiverSig := some ⟨r.value, false⟩ }
  generalize hF : [("sender", Json.obj [("id", .int (t.sender.getD 0)), ("signature", .str s.str)]),
      ("receiver", .obj [("id", .int (t.receiver.getD 0)), ("signature", .str r.str)]),
      ("names", .arr (t.names.map nameJson)), ("txfee", .str (feeOr t.fee).json), ("coininputs", .arr (l.map CoinInput.json))] ++
      refundField H t.refund = F
  have hj : t.jsonFields H = .ok F := by
    unfold TxV146.jsonFields; simp only [hl, hs, hrr, sigOr, Option.getD_some, hF]
  have hj' : t'.jsonFields H = .ok F := by
    unfold TxV146.jsonFields
    simp only [t', coinIns_json, fee_json hfee, refundField_back hr, sigOr, Option.getD_some, Signature.str]
    simp only [Signature.str] at hF
    rw [hF]
  have hof : TxV146.ofJson H (.obj F) = .ok t' := by
    have e1 := optField_some (l := F) (k := "sender") partyOfJson (v := Json.obj [("id", .int (t.sender.getD 0)), ("signature", .str s.str)])
      (by rw [← hF]; simp [jget_append, jget_cons])
    have e2 := optField_some (l := F) (k := "receiver") partyOfJson (v := Json.obj [("id", .int (t.receiver.getD 0)), ("signature", .str r.str)])
      (by rw [← hF]; simp [jget_append, jget_cons])
    rw [party_back hs'.1 (i := t.sender.getD 0) (by simp [jget_cons]) (by simp [jget_cons])] at e1
    rw [party_back hr'.1 (i := t.receiver.getD 0) (by simp [jget_cons]) (by simp [jget_cons])] at e2
    have e3 : (Json.obj F).listField "names" = .ok (t.names.map nameJson) :=
      listField_arr (.inl (by rw [← hF]; simp [jget_append, jget_cons]))
    have e4 := cur_back (l := F) (k := "txfee") hfee (by rw [← hF]; simp [jget_append, jget_cons])
    have e5 : (Json.obj F).listField "coininputs" = .ok (l.map CoinInput.json) :=
      listField_arr (.inl (by rw [← hF]; simp [jget_append, jget_cons]))
    have e6 := refund_back hH (l := F) hr (by rw [← hF]; simp [jget_append, jget_cons, jget_refund])
    unfold TxV146.ofJson
    rw [e1, e2, e3, e4, e5, e6]
    simp only [bind, Except.bind, pure, Except.pure, coinIns_back hci, Except.map]
    rw [mapM_ok _ _ _ fun a ha => name_back (hnm a ha)]
    rfl
  refine survives_of L H _ (.v146 t') _ _ hj hj' rfl ?_ ?_ ?_ False.elim
  · intro n hn
    have hn : n = 146 := hn
    subst hn
    simp only [Tx.fromJson, ver_getD, data_getD, Json.asInt?, bind, Except.bind, hof, pure, Except.pure]
    rfl
  · intro he
    rw [← hF] at he
    simp at he
  · intro extras
    simp only [Tx.sigInput, TxV146.sigInput, t', fee_val hfee, coinIns_ids, refundRiv_back hr, Option.getD_some, hl, insOrRaise]

theorem erc20_back {n : Nat} (hn : n = 20 ∨ n = 32) {b : Bytes} (h : b.length = 0 ∨ b.length = n) : erc20FromJson n (.str (erc20Str b)) = .ok b := by
  have hne : erc20Str b ≠ [] := by simp [erc20Str]
  have hr : StrEnc.hexprefix.fromStr (erc20Str b) = some b := strenc_roundtrip .hexprefix b
  have hd : ¬ (b.length ≠ 0 ∧ b.length ≠ n) := by omega
  have h1 : ¬ ((n : Int) < 0) := by omega
  have h2 : ((n : Int) ≠ 0) := by omega
  simp only [erc20FromJson, if_neg hne, erc20New, BinData.new, BinData.set, BVal.norm, hr, bind, Except.bind, if_neg h1, if_pos h2,
    Int.toNat_natCast, if_neg hd, pure, Except.pure]

@[inherit_doc backV1]
def backV208 (t : TxV208) : TxV208 :=
  { address := t.address, value := backCur t.value, fee := some (backCur (feeOr t.fee)), coinInputs := t.coinInputs.map backIn, refund := t.refund.map backOut }

theorem v208_as (L : IpLib) (H : Bytes → Bytes) (hH : Digest32 H) (t : TxV208) (ht : FullTx L (.v208 t)) :
    SurvivesAs L H (.v208 t) (.v208 (backV208 t)) True := by
  obtain ⟨ha, hv, hfee, hci, hr⟩ := ht
  let t' : TxV208 := { address := t.address, value := backCur t.value, fee := some (backCur (feeOr t.fee)),
                       coinInputs := t.coinInputs.map backIn, refund := t.refund.map backOut }
  have hfields : t'.jsonFields H = t.jsonFields H := by
    unfold TxV208.jsonFields
    simp only [t', coinIns_json, fee_json hfee, refundField_back hr, backCur_json hv.1]
  have hof : TxV208.ofJson H (.obj (t.jsonFields H)) = .ok t' := by
    have e1 := optField_some (l := t.jsonFields H) (k := "address") (erc20FromJson 20) (v := .str (erc20Str t.address))
      (by simp [TxV208.jsonFields, jget_append, jget_cons])
    rw [erc20_back (.inl rfl) ha] at e1
    have e2 := cur_back (l := t.jsonFields H) (k := "value") hv (by simp [TxV208.jsonFields, jget_append, jget_cons])
    have e4 := cur_back (l := t.jsonFields H) (k := "txfee") hfee (by simp [TxV208.jsonFields, jget_append, jget_cons])
    have e5 : (Json.obj (t.jsonFields H)).listField "coininputs" = .ok (t.coinInputs.map CoinInput.json) :=
      listField_arr (.inl (by simp [TxV208.jsonFields, jget_append, jget_cons]))
    have e6 := refund_back hH (l := t.jsonFields H) hr (by simp [TxV208.jsonFields, jget_append, jget_cons, jget_refund])
    unfold TxV208.ofJson
    rw [e1, e2, e4, e5, e6]
    simp only [bind, Except.bind, pure, Except.pure, coinIns_back hci, Except.map]
    rfl
  refine survives_as L H _ (.v208 t') _ _ rfl ?_ rfl ?_ ?_ ?_ ?_
  · simp only [Tx.jsonFields, hfields]
  · intro n hn
    have hn : n = 208 := hn
    subst hn
    simp only [Tx.fromJson, ver_getD, data_getD, Json.asInt?, bind, Except.bind, hof, pure, Except.pure]
    rfl
  · intro he
    simp [TxV208.jsonFields] at he
  · intro extras
    simp only [Tx.sigInput, TxV208.sigInput, t', fee_val hfee, coinIns_ids, refundRiv_back hr, backCur_val hv.1]
  · intro _
    simp only [Tx.binaryEncode, Tx.binaryData, TxV208.binaryData, t', fee_val hfee, coinIns_val, refundRiv_back hr, backCur_val hv.1]
    rfl

theorem v208_survives (L : IpLib) (H : Bytes → Bytes) (hH : Digest32 H) (t : TxV208) (ht : FullTx L (.v208 t)) : Survives L H (.v208 t) True :=
  (v208_as L H hH t ht).survives

theorem v209_survives (L : IpLib) (H : Bytes → Bytes) (hH : Digest32 H) (t : TxV209) (ht : FullTx L (.v209 t)) :
    Survives L H (.v209 t) True := by
  obtain ⟨ha, hv, hfee, hb, hi⟩ := ht
  let t' : TxV209 := { address := t.address, value := backCur t.value, fee := some (backCur (feeOr t.fee)),
                       blockId := t.blockId, txId := t.txId }
  have hfields : t'.jsonFields H = t.jsonFields H := by
    unfold TxV209.jsonFields
    simp only [t', fee_json hfee, backCur_json hv.1]
  have hof : TxV209.ofJson H (.obj (t.jsonFields H)) = .ok t' := by
    have e1 := optField_some (l := t.jsonFields H) (k := "address") (UnlockHash.fromJson H) (v := .str (t.address.str H))
      (by simp [TxV209.jsonFields, jget_cons])
    rw [show UnlockHash.fromJson H (.str (t.address.str H)) = .ok t.address from fromStr_str hH ha] at e1
    have e2 := cur_back (l := t.jsonFields H) (k := "value") hv (by simp [TxV209.jsonFields, jget_cons])
    have e4 := cur_back (l := t.jsonFields H) (k := "txfee") hfee (by simp [TxV209.jsonFields, jget_cons])
    have e5 := optField_some (l := t.jsonFields H) (k := "blockid") (erc20FromJson 32) (v := .str (erc20Str t.blockId))
      (by simp [TxV209.jsonFields, jget_cons])
    rw [erc20_back (.inr rfl) hb] at e5
    have e6 := optField_some (l := t.jsonFields H) (k := "txid") (erc20FromJson 32) (v := .str (erc20Str t.txId))
      (by simp [TxV209.jsonFields, jget_cons])
    rw [erc20_back (.inr rfl) hi] at e6
    unfold TxV209.ofJson
    rw [e1, e2, e4, e5, e6]
    rfl
  refine survives_of L H _ (.v209 t') _ _ rfl ?_ rfl ?_ ?_ ?_ ?_
  · simp only [Tx.jsonFields, hfields]
  · intro n hn
    have hn : n = 209 := hn
    subst hn
    simp only [Tx.fromJson, ver_getD, data_getD, Json.asInt?, bind, Except.bind, hof, pure, Except.pure]
    rfl
  · intro he
    simp [TxV209.jsonFields] at he
  · intro extras
    simp only [Tx.sigInput, TxV209.sigInput, t', fee_val hfee, backCur_val hv.1]
  · intro _
    simp only [Tx.binaryEncode, Tx.binaryData, TxV209.binaryData, t', fee_val hfee, backCur_val hv.1]
    rfl

theorem v210_survives (L : IpLib) (H : Bytes → Bytes) (hH : Digest32 H) (t : TxV210) (ht : FullTx L (.v210 t)) :
    Survives L H (.v210 t) False := by
  obtain ⟨⟨k, hk, hk'⟩, ⟨s, hs, hs'⟩, hfee, ⟨l, hl, hci⟩, hr⟩ := ht
  let t' : TxV210 := { key := some k, sig := some ⟨s.value, false⟩, fee := some (backCur (feeOr t.fee)),
                       coinInputs := some (l.map backIn), refund := t.refund.map backOut }
  have hu : ∃ u, k.unlockhash H = .ok u := by
    obtain ⟨x, hx⟩ := key_unlockhash H (Nat.le_of_eq hk')
    exact ⟨_, hx⟩
  obtain ⟨u, hu⟩ := hu
  have he : ∃ e, erc20OfUnlockHash H u = .ok e := by
    unfold erc20OfUnlockHash
    rw [uh_sia]
    simp only [Out.ok_toRes, bind, Except.bind]
    have hl20 : ((H (u.type :: u.hash.value)).drop 12).length = 20 := by rw [List.length_drop, hH]
    refine ⟨(H (u.type :: u.hash.value)).drop 12, ?_⟩
    simp only [erc20New, BinData.new, BinData.set, BVal.norm, bind, Except.bind]
    have h32 : (H (u.type :: u.hash.value)).length = 32 := hH _
    simp [h32, pure, Except.pure]
  obtain ⟨e, he⟩ := he
  generalize hF : [("pubkey", Json.str k.str), ("tftaddress", .str (u.str H)), ("erc20address", .str (erc20Str e)),
      ("signature", .str s.str), ("regfee", .str registrationFee.json), ("txfee", .str (feeOr t.fee).json),
      ("coininputs", .arr (l.map CoinInput.json))] ++ refundField H t.refund = F
  have hj : t.jsonFields H = .ok F := by
    unfold TxV210.jsonFields
    simp only [hk, keyOr, Option.getD_some, hu, bind, Except.bind, he, hl, hs, sigOr, pure, Except.pure, hF]
  have hj' : t'.jsonFields H = .ok F := by
    unfold TxV210.jsonFields
    simp only [t', keyOr, Option.getD_some, hu, bind, Except.bind, he, sigOr, pure, Except.pure, coinIns_json, fee_json hfee, refundField_back hr, Signature.str]
    simp only [Signature.str] at hF
    rw [hF]
  have hof : TxV210.ofJson H (.obj F) = .ok t' := by
    have e1 := optField_some (l := F) (k := "pubkey") PublicKey.fromJson (v := .str k.str) (by rw [← hF]; simp [jget_append, jget_cons])
    rw [key_json hk'] at e1
    have e2 := optField_some (l := F) (k := "signature") (Signature.fromJson · false) (v := .str s.str) (by rw [← hF]; simp [jget_append, jget_cons])
    rw [sig_back hs'.1] at e2
    have e3 := optField_some (l := F) (k := "regfee") (fun x => do setRegistrationFee (← currencyOfJson x)) (v := .str registrationFee.json)
      (by rw [← hF]; simp [jget_append, jget_cons])
    rw [show (do setRegistrationFee (← currencyOfJson (.str registrationFee.json)) : Res Unit) = .ok () from by decide +kernel] at e3
    have e4 := cur_back (l := F) (k := "txfee") hfee (by rw [← hF]; simp [jget_append, jget_cons])
    have e5 : (Json.obj F).listField "coininputs" = .ok (l.map CoinInput.json) :=
      listField_arr (.inl (by rw [← hF]; simp [jget_append, jget_cons]))
    have e6 := refund_back hH (l := F) hr (by rw [← hF]; simp [jget_append, jget_cons, jget_refund])
    unfold TxV210.ofJson
    rw [e1, e2, e3, e4, e5, e6]
    simp only [bind, Except.bind, pure, Except.pure, coinIns_back hci, Except.map]
    rfl
  refine survives_of L H _ (.v210 t') _ _ hj hj' rfl ?_ ?_ ?_ False.elim
  · intro n hn
    have hn : n = 210 := hn
    subst hn
    simp only [Tx.fromJson, ver_getD, data_getD, Json.asInt?, bind, Except.bind, hof, pure, Except.pure]
    rfl
  · intro he
    rw [← hF] at he
    simp at he
  · intro extras
    simp only [Tx.sigInput, TxV210.sigInput, t', fee_val hfee, coinIns_ids, refundRiv_back hr, hl, hk, insOrRaise]

/-- **C40** (what holds). Every complete transaction that is not a legacy one has a JSON form, which is read back as a transaction of
the same version with the same JSON form and the same signature preimage for any extra objects; for all versions but 145, 146 and 210 the
binary encoding is the same too. -/
theorem C40_tx_json_partial (L : IpLib) (hL : LawfulIp L) (H : Bytes → Bytes) (hH : Digest32 H) (t : Tx) (ht : FullTx L t) :
    ∃ j t', t.json L H = .ok j ∧ Tx.fromJson L H j = .ok t' ∧ t'.version = t.version ∧ t'.json L H = .ok j ∧
      (∀ extras, t'.sigInput H extras = t.sigInput H extras) ∧
      (t.version ∉ [145, 146, 210] → t'.binaryEncode H = t.binaryEncode H) := by
  have weaken : ∀ P Q : Prop, (Q → P) → Survives L H t P → Survives L H t Q := by
    rintro P Q h ⟨j, t', h1, h2, h3, h4, h5, h6⟩; exact ⟨j, t', h1, h2, h3, h4, h5, fun q => h6 (h q)⟩
  show Survives L H t _
  cases t with
  | v1 t => exact weaken _ _ (fun _ => trivial) (v1_survives L H hH t ht)
  | v128 t => exact weaken _ _ (fun _ => trivial) (v128_survives L H hH t ht)
  | v129 t => exact weaken _ _ (fun _ => trivial) (v129_survives L H hH t ht)
  | v144 t => exact weaken _ _ (fun _ => trivial) (v144_survives L hL H hH t ht)
  | v145 t => exact weaken _ _ (fun h => h (by simp [Tx.version])) (v145_survives L hL H hH t ht)
  | v146 t => exact weaken _ _ (fun h => h (by simp [Tx.version])) (v146_survives L H hH t ht)
  | v208 t => exact weaken _ _ (fun _ => trivial) (v208_survives L H hH t ht)
  | v209 t => exact weaken _ _ (fun _ => trivial) (v209_survives L H hH t ht)
  | v210 t => exact weaken _ _ (fun h => h (by simp [Tx.version])) (v210_survives L H hH t ht)

/-- A version-1 payment and a version-145 record update, both complete. -/
def fullV1 : Tx := .v1 {
  coinInputs := [⟨⟨List.replicate 32 1⟩, .single key1 (some ⟨List.replicate 64 3, false⟩), none⟩],
  coinOutputs := [⟨⟨some ⟨false, 25, -1⟩⟩, .unlockHash ⟨1, ⟨List.replicate 32 1⟩⟩, ⟨[]⟩⟩],
  minerFees := [⟨some ⟨false, 1, -1⟩⟩], data := [1, 2, 3] }
@[inherit_doc fullV1]
def fullV145 : TxV145 :=
  { botid := some 7, namesAdd := [⟨"alpha".toList⟩], months := 3, fee := some ⟨some ⟨false, 1, -1⟩⟩,
    coinInputs := [⟨⟨List.replicate 32 1⟩, .single key1 (some ⟨List.replicate 64 3, false⟩), none⟩],
    sig := some ⟨List.replicate 64 3, true⟩ }

example : FullTx toyIp fullV1 := by
  refine ⟨rfl, ?_, ?_, by simp, by simp, ?_⟩
  · intro x hx
    rw [List.mem_singleton.1 hx]
    exact ⟨by decide, by unfold FullKey; decide, _, rfl, by unfold FullSig; decide⟩
  · intro x hx
    rw [List.mem_singleton.1 hx]
    exact ⟨⟨⟨rfl, by decide⟩, by decide⟩, .inl ⟨by decide, by decide⟩⟩
  · intro x hx
    rw [List.mem_singleton.1 hx]
    exact ⟨⟨rfl, by decide⟩, by decide⟩
theorem fullV145_full : FullTx toyIp (.v145 fullV145) := by
  refine ⟨by simp [fullV145], by simp [fullV145], ?_, by simp [fullV145], ⟨⟨rfl, by decide⟩, by decide⟩, ?_, by simp [fullV145], _, rfl, by decide, rfl⟩
  · intro x hx
    rw [List.mem_singleton.1 hx]
    exact .inr ⟨"alpha".toList, by decide +kernel⟩
  · intro x hx
    rw [List.mem_singleton.1 hx]
    exact ⟨by decide, by unfold FullKey; decide, _, rfl, by unfold FullSig; decide⟩

/-- **C40** (findings). The full statement is false of the code in three ways: the signature of a complete version-145 transaction read
from JSON is encoded with a length prefix (it is created without `as_array`), so the binary encoding - hence the transaction id - differs;
a legacy transaction comes back as a version-1 one with another encoding; and a registration without key has no JSON form at all. -/
theorem C40_tx_json_false (L : IpLib) :
    (∃ t' : Tx, FullTx toyIp (.v145 fullV145) ∧ ((Tx.v145 fullV145).json toyIp toyHash >>= Tx.fromJson toyIp toyHash) = .ok t' ∧
      t'.binaryEncode toyHash ≠ (Tx.v145 fullV145).binaryEncode toyHash ∧ ((Tx.v145 fullV145).binaryEncode toyHash).toOption.isSome) ∧
    (∃ t' : Tx, ((Tx.v1 { data := [1], legacy := true }).json L toyHash >>= Tx.fromJson L toyHash) = .ok t' ∧
      t'.binaryEncode toyHash ≠ (Tx.v1 { data := [1], legacy := true }).binaryEncode toyHash ∧
      t'.sigInput toyHash [] ≠ (Tx.v1 { data := [1], legacy := true }).sigInput toyHash []) ∧
    (Tx.v144 {}).json L toyHash = .error .attributeError := by
  refine ⟨⟨.v145 { fullV145 with fee := some ⟨some ⟨false, 100000000, -9⟩⟩, sig := some ⟨List.replicate 64 3, false⟩ },
    fullV145_full, by decide +kernel, by decide +kernel, by decide +kernel⟩, ?_, rfl⟩
  exact ⟨.v1 { data := [1] }, by rfl, by decide +kernel, by decide +kernel⟩

end TF.Props
