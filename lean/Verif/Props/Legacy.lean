import Verif.Spec.Legacy
import Verif.Props.Wire
import Verif.Props.TxJson
/-! # C112: legacy transactions are read as they are -/
namespace TF.Props
open TF Spec

theorem mapM_forall₂ {α β γ : Type} {R : β → γ → Prop} {f : β → Res α} {g : γ → α} : ∀ {xs : List β} {l : List γ}, List.Forall₂ R xs l →
    (∀ x y, y ∈ l → R x y → f x = .ok (g y)) → xs.mapM f = .ok (l.map g)
  | _, _, .nil, _ => rfl
  | _, _, .cons h t, hf => by
    rw [List.mapM_cons, hf _ _ (by simp) h, mapM_forall₂ t fun x y hy => hf x y (by simp [hy])]; rfl

theorem legacyList_listed {α γ : Type} {d : List (String × Json)} {k : String} {R : Json → γ → Prop} {l : List γ} {f : Json → Res α} {g : γ → α}
    (h : Listed d k R l) (hf : ∀ x y, y ∈ l → R x y → f x = .ok (g y)) : ∃ xs, legacyList (.obj d) k = .ok xs ∧ xs.mapM f = .ok (l.map g) := by
  rcases h with ⟨rfl, h | h⟩ | ⟨xs, h, h2⟩
  · exact ⟨[], by simp [legacyList, Json.has, h, bind, Except.bind, pure, Except.pure], rfl⟩
  · exact ⟨[], by simp [legacyList, Json.has, Json.idx, Json.truthy, h, bind, Except.bind, pure, Except.pure], rfl⟩
  · refine ⟨xs, ?_, mapM_forall₂ h2 hf⟩
    cases xs with
    | nil => simp [legacyList, Json.has, Json.idx, Json.truthy, h, bind, Except.bind, pure, Except.pure]
    | cons x xs => simp [legacyList, Json.has, Json.idx, Json.truthy, Json.iter, h, bind, Except.bind]

/-- The inputs and outputs as the library holds them. -/
def coinInOf (i : LegacyIn) : CoinInput := ⟨i.parent, .single i.key (some ⟨i.sig, false⟩), none⟩
@[inherit_doc coinInOf] def stakeInOf (i : LegacyIn) : StakeInput := ⟨i.parent, .single i.key (some ⟨i.sig, false⟩), .default⟩
@[inherit_doc coinInOf] def coinOutOf (o : LegacyOut) : CoinOutput := ⟨⟨some ⟨false, o.value, -9⟩⟩, .unlockHash o.address, ⟨[]⟩⟩
@[inherit_doc coinInOf] def stakeOutOf (o : LegacyOut) : StakeOutput := ⟨⟨o.value⟩, .unlockHash o.address, ⟨[]⟩⟩

@[inherit_doc coinInOf] def legacyOf (t : Legacy) : TxV1 :=
  { coinInputs := t.coinInputs.map coinInOf, coinOutputs := t.coinOutputs.map coinOutOf, stakeInputs := t.stakeInputs.map stakeInOf,
    stakeOutputs := t.stakeOutputs.map stakeOutOf, minerFees := t.fees.map fun n => ⟨some ⟨false, n, -9⟩⟩, data := t.data, legacy := true }

theorem inputInfo {x : Json} {i : LegacyIn} (h : IsInput x i) : legacyInputInfo x = .ok (coinInOf i).json := by
  obtain ⟨f, u, c, s, rfl, h1, h2, h3, h4, h5, h6⟩ := h
  unfold legacyInputInfo Json.getNull
  rw [getD_some h1, getD_some h2]
  simp only [bind, Except.bind]
  rw [getD_some h3, getD_some h5]
  simp only
  rw [getD_some h4, getD_some h6]
  rfl
theorem dec_units (n : Nat) : amount ⟨some ⟨false, n, -9⟩⟩ = n := by simp [amount, units, Currency.value]
theorem dec_json (n : Nat) : (⟨some ⟨false, n, -9⟩⟩ : Currency).json = natStr n := by
  unfold Currency.json; rw [toInt_eq ⟨rfl, Int.le_refl _⟩, dec_units]
theorem outputInfo {H : Bytes → Bytes} {x : Json} {o : LegacyOut} (h : IsOutput H x o) :
    legacyOutputInfo x = .ok (.obj [("value", .str (natStr o.value)), ("condition", (Condition.unlockHash o.address).json H)]) := by
  obtain ⟨f, rfl, h1, h2⟩ := h
  unfold legacyOutputInfo
  rcases h1 with h1 | ⟨h1, h0⟩
  · rw [getD_some h1, getD_some h2]; rfl
  · rw [getD_none h1, getD_some h2, h0]; rfl

theorem dec_read {n : Nat} (h : n < 10 ^ 28) : currencyOfJson (.str (natStr n)) = .ok ⟨some ⟨false, n, -9⟩⟩ := by
  have := cur_json (c := ⟨some ⟨false, n, -9⟩⟩) ⟨⟨rfl, Int.le_refl _⟩, by rw [dec_units]; exact h⟩
  rw [dec_json] at this
  rw [this]; unfold backCur; rw [dec_units]

theorem legacy_read (L : IpLib) (H : Bytes → Bytes) (hH : Digest32 H) (j : Json) (t : Legacy) (hj : LegacyJson H j t) (ht : t.Full) :
    Tx.fromJson L H j = .ok (.v1 (legacyOf t)) := by
  obtain ⟨top, d, rfl, hv, hd, h1, h2, h3, h4, h5, h6⟩ := hj
  have hin : ∀ i ∈ t.coinInputs ++ t.stakeInputs, FullFulfillment (.single i.key (some ⟨i.sig, false⟩)) := fun i hi =>
    ⟨(ht.inputs i hi).2.1, ⟨i.sig, false⟩, rfl, (ht.inputs i hi).2.2, rfl⟩
  obtain ⟨l1, f1, e1⟩ := legacyList_listed (f := fun x => do CoinInput.fromJson (← legacyInputInfo x)) (g := coinInOf) h1 fun x y hy hR => by
    rw [inputInfo hR]
    exact coinInput_json (ci := coinInOf y) ⟨(ht.inputs y (List.mem_append_left _ hy)).1, hin y (List.mem_append_left _ hy)⟩
  obtain ⟨l3, f3, e3⟩ := legacyList_listed (f := fun x => do StakeInput.fromJson (← legacyInputInfo x)) (g := stakeInOf) h3 fun x y hy hR => by
    rw [inputInfo hR]
    exact stakeInput_json (ci := stakeInOf y) ⟨(ht.inputs y (List.mem_append_right _ hy)).1, hin y (List.mem_append_right _ hy)⟩
  obtain ⟨l2, f2, e2⟩ := legacyList_listed (f := fun x => do CoinOutput.fromJson H (← legacyOutputInfo x)) (g := coinOutOf) h2 fun x y hy hR => by
    rw [outputInfo hR]
    have hc := C28_condition_json_partial H hH (.unlockHash y.address) (ht.addresses y (List.mem_append_left _ hy))
    simp [CoinOutput.fromJson, Json.idx, jget, dec_read (ht.values y hy), hc, bind, Except.bind, pure, Except.pure, coinOutOf]
  obtain ⟨l4, f4, e4⟩ := legacyList_listed (f := fun x => do StakeOutput.fromJson H (← legacyOutputInfo x)) (g := stakeOutOf) h4 fun x y hy hR => by
    rw [outputInfo hR]
    have hc := C28_condition_json_partial H hH (.unlockHash y.address) (ht.addresses y (List.mem_append_right _ hy))
    have hs : stakeOfJson (.str (natStr y.value)) = .ok ⟨y.value⟩ := (C20_blockstake ⟨y.value⟩ 0).1
    simp [StakeOutput.fromJson, Json.idx, jget, hs, hc, bind, Except.bind, pure, Except.pure, stakeOutOf]
  obtain ⟨l5, f5, e5⟩ := legacyList_listed (f := currencyOfJson) (g := fun n => (⟨some ⟨false, n, -9⟩⟩ : Currency)) h5 fun x y hy hR => by
    rw [hR]; exact dec_read (ht.fees y hy)
  have e6 : ((Json.obj d).has "arbitrarydata" = .ok false ∧ t.data = []) ∨ ∃ v, (Json.obj d).has "arbitrarydata" = .ok true ∧
      (Json.obj d).orDefault "arbitrarydata" (.str []) = .ok v ∧ base64OfJson v = .ok t.data := by
    rcases h6 with h6 | ⟨h0, h6 | h6⟩
    · obtain ⟨v, hv, hb⟩ := data_back (l := d) (k := "arbitrarydata") (b := t.data) (.inl h6)
      exact .inr ⟨v, by simp [Json.has, h6], hv, hb⟩
    · exact .inl ⟨by simp [Json.has, h6], h0⟩
    · exact .inr ⟨_, by simp [Json.has, h6], orDefault_some h6, by rw [h0]; rfl⟩
  unfold Tx.fromJson
  simp only
  rw [getD_some hv]
  simp only [bind, Except.bind, Json.asInt?]
  have : TxV1.legacyOfJson H (.obj top) = .ok (legacyOf t) := by
    have hh : (Json.obj top).has "data" = .ok true := by simp [Json.has, hd]
    have hx : (Json.obj top).idx "data" = .ok (.obj d) := by simp [Json.idx, hd]
    simp only [bind, Except.bind] at e1 e2 e3 e4
    unfold TxV1.legacyOfJson
    simp only [hh, hx, f1, f2, f3, f4, f5, e1, e2, e3, e4, e5, bind, Except.bind, Bool.not_true]
    rcases e6 with ⟨g1, g2⟩ | ⟨v, g1, g2, g3⟩
    · simp only [g1]; unfold legacyOf; rw [g2]; rfl
    · simp only [g1, g2, g3]; rfl
  rw [this]
  rfl

theorem legacy_formed (t : Legacy) : Wire.Formed (.v1 (legacyOf t)) := by
  refine ⟨?_, fun _ h => (nomatch h), ?_, fun _ h => (nomatch h), fun _ h => (nomatch h)⟩
  · intro c hc
    simp only [legacyOf, Wire.amounts, List.map_map, List.mem_append, List.mem_map] at hc
    rcases hc with ⟨o, -, rfl⟩ | ⟨o, -, rfl⟩ <;> exact ⟨rfl, Int.le_refl _⟩
  · intro f hf
    simp only [legacyOf, Wire.fulfillments, Tx.coinInputs, Tx.stakeInputs, Option.getD_some, List.map_map, List.append_nil, List.mem_append, List.mem_map] at hf
    rcases hf with ⟨o, -, rfl⟩ | ⟨o, -, rfl⟩ <;> (intro x hx; cases hx; rfl)

/-- C112: the JSON form of a legacy transaction is read as a legacy transaction with exactly these inputs, outputs, fees and data. -/
theorem C112_legacy_json (L : IpLib) (H : Bytes → Bytes) (hH : Digest32 H) (j : Json) (t : Legacy) (hj : LegacyJson H j t) (ht : t.Full) :
    ∃ x : TxV1, Tx.fromJson L H j = .ok (.v1 x) ∧ x.legacy = true ∧ x.data = t.data ∧
      x.coinInputs.map (fun i => (i.parentId, i.fulfillment)) = t.coinInputs.map (fun i => (i.parent, .single i.key (some ⟨i.sig, false⟩))) ∧
      x.stakeInputs.map (fun i => (i.parentId, i.fulfillment)) = t.stakeInputs.map (fun i => (i.parent, .single i.key (some ⟨i.sig, false⟩))) ∧
      x.coinOutputs.map (fun o => (amount o.value, o.condition)) = t.coinOutputs.map (fun o => (o.value, .unlockHash o.address)) ∧
      x.stakeOutputs.map (fun o => (o.value.value, o.condition)) = t.stakeOutputs.map (fun o => (o.value, .unlockHash o.address)) ∧
      x.minerFees.map amount = t.fees ∧ Wire.Formed (.v1 x) := by
  refine ⟨legacyOf t, legacy_read L H hH j t hj ht, rfl, rfl, ?_, ?_, ?_, ?_, ?_, legacy_formed t⟩
  all_goals simp only [legacyOf, List.map_map]
  · rfl
  · rfl
  · apply List.map_congr_left; intro o _; simp [coinOutOf, dec_units]
  · rfl
  · have : amount ∘ (fun n : Nat => (⟨some ⟨false, n, -9⟩⟩ : Currency)) = id := by funext n; exact dec_units n
    rw [this]; simp

/-- C112: and it is encoded, and identified, by the network's bytes of what the JSON says. -/
theorem C112_legacy_bytes (L : IpLib) (H : Bytes → Bytes) (hH : Digest32 H) (j : Json) (t : Legacy) (hj : LegacyJson H j t) (ht : t.Full) (hf : t.Fits) :
    ∃ x, Tx.fromJson L H j = .ok x ∧ x.binaryEncode H = .ok t.encoding ∧ x.idInput H = .ok t.encoding := by
  refine ⟨_, legacy_read L H hH j t hj ht, ?_⟩
  have hfits : LegacyFits (legacyOf t) := by
    have hamt : ∀ n : Nat, n < 10 ^ 28 → AmountFits ⟨some ⟨false, n, -9⟩⟩ := fun n h => ⟨⟨rfl, Int.le_refl _⟩, by rw [dec_units]; omega⟩
    have haddr : ∀ u, CanonicalAddress u → HashFits u.hash := by
      rintro u (⟨-, h⟩ | ⟨-, h⟩) <;> simp [HashFits, h]
    have hin : ∀ i ∈ t.coinInputs ++ t.stakeInputs, HashFits i.parent ∧ FulfillmentFits (.single i.key (some ⟨i.sig, false⟩)) := fun i hi => by
      obtain ⟨h1, h2, h3⟩ := ht.inputs i hi
      refine ⟨Nat.le_of_eq h1, Nat.le_of_eq h2, ?_⟩
      intro x hx; cases hx; exact Nat.le_of_eq h3
    have few : ∀ {α β : Type} (g : α → β) {l : List α}, Few l → Few (l.map g) := fun g l h => by simpa [Few] using h
    refine ⟨rfl, ⟨few _ hf.coinInputs, ?_⟩, ⟨few _ hf.coinOutputs, ?_⟩, ⟨few _ hf.stakeInputs, ?_⟩, ⟨few _ hf.stakeOutputs, ?_⟩, ⟨few _ hf.fees, ?_⟩, hf.data,
      ?_, ?_⟩
    all_goals
      intro x hx
      simp only [legacyOf, List.mem_map] at hx
      obtain ⟨y, hy, rfl⟩ := hx
    · exact hin y (by simp [hy])
    · exact ⟨hamt _ (ht.values y hy), haddr _ (ht.addresses y (by simp [hy]))⟩
    · exact hin y (by simp [hy])
    · exact ⟨hf.stakes y hy, haddr _ (ht.addresses y (by simp [hy]))⟩
    · exact hamt _ (ht.fees y hy)
    · trivial
    · trivial
  obtain ⟨b, hb⟩ := C99_legacy_encodes H _ hfits
  obtain ⟨h1, h2⟩ := C111_legacy_encoding H (fun c => match c.unlockhash H with | .ok u => u | .error _ => .default) (fun c u h => by simp only [h]) _ rfl
    (legacy_formed t) b hb
  have : b = t.encoding := by
    rw [h1]
    simp only [Wire.legacyEncoding, legacyOf, Legacy.encoding, Wire.list, List.length_map, List.flatMap_map]
    simp [coinInOf, stakeInOf, coinOutOf, stakeOutOf, Wire.legacyInput, Wire.signer, Wire.sigBytes, Wire.amount, Wire.stakes, dec_units, Condition.unlockhash]
  exact ⟨by rw [hb, this], by rw [h2, this]⟩

/-- The JSON of a legacy transaction with an input, an output of 5 TFT, an output without value, a fee and no data. -/
def legacyDemo : Legacy := {
  coinInputs := [⟨⟨List.replicate 32 1⟩, key1, List.replicate 64 2⟩], coinOutputs := [⟨5000000000, addrOf key2⟩, ⟨0, addrOf key1⟩], stakeInputs := []
  stakeOutputs := [⟨7, addrOf key2⟩], fees := [100000000], data := [] }
@[inherit_doc legacyDemo] def legacyDemoJson : Json := .obj [("version", .int 0), ("data", .obj [
  ("coininputs", .arr [.obj [("parentid", .str (⟨List.replicate 32 1⟩ : Hash).str), ("unlocker", .obj [("type", .int 1),
    ("condition", .obj [("publickey", .str key1.str)]), ("fulfillment", .obj [("signature", .str (toHex (List.replicate 64 2)))])])]]),
  ("coinoutputs", .arr [.obj [("value", .str (natStr 5000000000)), ("unlockhash", .str ((addrOf key2).str toyHash))],
    .obj [("unlockhash", .str ((addrOf key1).str toyHash))]]),
  ("blockstakeinputs", .null), ("blockstakeoutputs", .arr [.obj [("value", .str (natStr 7)), ("unlockhash", .str ((addrOf key2).str toyHash))]]),
  ("minerfees", .arr [.str (natStr 100000000)])])]
example : LegacyJson toyHash legacyDemoJson legacyDemo ∧ legacyDemo.Full ∧ legacyDemo.Fits := by
  refine ⟨⟨_, _, rfl, rfl, rfl, .inr ⟨_, rfl, .cons ⟨_, _, _, _, rfl, rfl, rfl, rfl, rfl, rfl, rfl⟩ .nil⟩,
    .inr ⟨_, rfl, .cons ⟨_, rfl, .inl rfl, rfl⟩ (.cons ⟨_, rfl, .inr ⟨rfl, rfl⟩, rfl⟩ .nil)⟩, .inl ⟨rfl, .inr rfl⟩,
    .inr ⟨_, rfl, .cons ⟨_, rfl, .inl rfl, rfl⟩ .nil⟩, .inr ⟨_, rfl, .cons rfl .nil⟩, .inr ⟨rfl, .inl rfl⟩⟩, ⟨?_, ?_, by decide, by decide⟩,
    ⟨by decide, by decide, by decide, by decide, by decide, by decide, by decide⟩⟩
  · intro i hi; simp [legacyDemo] at hi; subst hi; exact ⟨by decide, by unfold FullKey; decide, by decide⟩
  · unfold CanonicalAddress; decide

end TF.Props
