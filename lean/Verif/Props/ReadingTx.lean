import Verif.Props.Reading
/-! # C127 for whole transactions -/
namespace TF.Props
open TF TF.Spec

theorem legacyList_iff {α : Type} {f : Json → Res α} {R : Json → α → Prop} (hf : ∀ x y, f x = .ok y ↔ R x y) (d : Json) (k : String) (l : List α) :
    (∃ xs, legacyList d k = .ok xs ∧ xs.mapM f = .ok l) ↔ OldList d k R l := by
  unfold legacyList OldList
  obtain ⟨a1, a2, a3⟩ := has_iff d k
  simp only [bind_iff, mapM_iff hf]
  constructor
  · rintro ⟨xs, ⟨b, hb, h⟩, hx⟩
    cases b with
    | false => simp only [Bool.false_eq_true, if_false] at h; cases h; cases hx; exact .inl ⟨a1.1 hb, rfl⟩
    | true =>
      simp only [if_true, bind_iff, idx_iff] at h
      obtain ⟨v, hv, h⟩ := h
      refine .inr ⟨v, hv, ?_⟩
      split at h
      · rename_i e; exact .inr ⟨(not_nothing_iff _).2 e, xs, (iter_iff _ _).1 h, hx⟩
      · rename_i e; cases h; cases hx; exact .inl ⟨(nothing_iff _).2 (by simpa using e), rfl⟩
  · rintro (⟨h, rfl⟩ | ⟨w, h, ⟨e, rfl⟩ | ⟨e, xs, hm, hx⟩⟩)
    · exact ⟨[], ⟨false, a1.2 h, rfl⟩, .nil⟩
    · refine ⟨[], ⟨true, a3 ⟨w, h⟩, ?_⟩, .nil⟩
      simp only [if_true, bind_iff, idx_iff]
      exact ⟨w, h, by rw [(nothing_iff _).1 e]; rfl⟩
    · refine ⟨xs, ⟨true, a3 ⟨w, h⟩, ?_⟩, hx⟩
      simp only [if_true, bind_iff, idx_iff]
      exact ⟨w, h, by rw [(not_nothing_iff _).1 e]; exact (iter_iff _ _).2 hm⟩

theorem old_bind {α β : Type} {f : Json → Res α} {R : Json → α → Prop} (hf : ∀ x y, f x = .ok y ↔ R x y) (d : Json) (k : String) (g : List α → Res β) (b : β) :
    (legacyList d k >>= fun xs => xs.mapM f >>= g) = .ok b ↔ ∃ l, OldList d k R l ∧ g l = .ok b := by
  simp only [bind_iff, ← legacyList_iff hf]
  constructor
  · rintro ⟨xs, h1, l, h2, h3⟩; exact ⟨l, ⟨xs, h1, h2⟩, h3⟩
  · rintro ⟨l, ⟨xs, h1, h2⟩, h3⟩; exact ⟨xs, h1, l, h2, h3⟩

/-- The object a legacy input is rewritten as. -/
def signedObj (p pk sig : Json) : Json :=
  .obj [("parentid", p), ("fulfillment", .obj [("type", .int 1), ("data", .obj [("publickey", pk), ("signature", sig)])])]
/-- The object a legacy output is rewritten as. -/
def paidObj (v u : Json) : Json := .obj [("value", v), ("condition", .obj [("type", .int 1), ("data", .obj [("unlockhash", u)])])]

theorem signedObj_parent (p pk sig x : Json) : FieldIs (signedObj p pk sig) "parentid" x ↔ x = p := by
  simp [FieldIs, signedObj, jget, eq_comm]

theorem signedObj_says (p pk sig : Json) (f : Fulfillment) : (∃ g, FieldIs (signedObj p pk sig) "fulfillment" g ∧ SaysFulfillment g f) ↔
    ∃ k s, SaysKey pk k ∧ SaysSignature false sig s ∧ f = .single k (some s) := by
  have hf : ∀ g, FieldIs (signedObj p pk sig) "fulfillment" g ↔ g = .obj [("type", .int 1), ("data", .obj [("publickey", pk), ("signature", sig)])] := by
    intro g; simp [FieldIs, signedObj, jget, eq_comm]
  simp only [hf, exists_eq_left, ← C127_fulfillment]
  rw [show Fulfillment.fromJson (.obj [("type", .int 1), ("data", .obj [("publickey", pk), ("signature", sig)])]) = singleOfJson (.obj [("publickey", pk), ("signature", sig)]) from rfl,
    single_iff]
  have h1 : ∀ v, FieldIs (.obj [("publickey", pk), ("signature", sig)]) "publickey" v ↔ v = pk := by intro g; simp [FieldIs, jget, eq_comm]
  have h2 : ∀ v, FieldIs (.obj [("publickey", pk), ("signature", sig)]) "signature" v ↔ v = sig := by intro g; simp [FieldIs, jget, eq_comm]
  unfold SaysSigned
  simp only [h1, h2]
  constructor
  · rintro ⟨k, s, ⟨_, _, rfl, a, rfl, b⟩, rfl⟩; exact ⟨k, s, a, b, rfl⟩
  · rintro ⟨k, s, a, b, rfl⟩; exact ⟨k, s, ⟨_, _, rfl, a, rfl, b⟩, rfl⟩

theorem paidObj_value (v u x : Json) : FieldIs (paidObj v u) "value" x ↔ x = v := by
  simp [FieldIs, paidObj, jget, eq_comm]

theorem paidObj_says (H : Bytes → Bytes) (v u : Json) (c : Condition) : (∃ g, FieldIs (paidObj v u) "condition" g ∧ SaysCondition H g c) ↔
    ∃ a, InText (AddressText H) u a ∧ c = .unlockHash a := by
  have hf : ∀ g, FieldIs (paidObj v u) "condition" g ↔ g = .obj [("type", .int 1), ("data", .obj [("unlockhash", u)])] := by
    intro g; simp [FieldIs, paidObj, jget, eq_comm]
  simp only [hf, exists_eq_left, ← C127_condition]
  rw [show Condition.fromJson H (.obj [("type", .int 1), ("data", .obj [("unlockhash", u)])]) = (UnlockHash.fromJson H u >>= fun a => pure (.unlockHash a)) from rfl]
  simp only [bind_iff, addressJson_iff, pure_iff]
  constructor
  · rintro ⟨a, h, rfl⟩; exact ⟨a, h, rfl⟩
  · rintro ⟨a, h, rfl⟩; exact ⟨a, h, rfl⟩

theorem legacyInput_iff (x y : Json) : legacyInputInfo x = .ok y ↔ ∃ u p c pk g sig, FieldOr x "unlocker" (.obj []) u ∧ FieldOr x "parentid" (.str []) p ∧
    FieldOr u "condition" (.obj []) c ∧ FieldOr c "publickey" .null pk ∧ FieldOr u "fulfillment" (.obj []) g ∧ FieldOr g "signature" .null sig ∧ y = signedObj p pk sig := by
  unfold legacyInputInfo Json.getNull
  simp only [getD_bind, pure_iff]
  constructor
  · rintro ⟨u, h1, p, h2, c, h3, pk, h4, g, h5, sig, h6, rfl⟩; exact ⟨u, p, c, pk, g, sig, h1, h2, h3, h4, h5, h6, rfl⟩
  · rintro ⟨u, p, c, pk, g, sig, h1, h2, h3, h4, h5, h6, rfl⟩; exact ⟨u, h1, p, h2, c, h3, pk, h4, g, h5, sig, h6, rfl⟩

theorem oldSigned_of {x p u c pk g sig : Json} {f : Fulfillment} {b : Bytes} (h1 : FieldOr x "unlocker" (.obj []) u) (h2 : FieldOr x "parentid" (.str []) p)
    (h3 : FieldOr u "condition" (.obj []) c) (h4 : FieldOr c "publickey" .null pk) (h5 : FieldOr u "fulfillment" (.obj []) g) (h6 : FieldOr g "signature" .null sig)
    (hp : InTextOrNull (SizedText 32) p b) (hf : ∃ k s, SaysKey pk k ∧ SaysSignature false sig s ∧ f = .single k (some s)) : OldSigned x b f := by
  obtain ⟨k, s, hk, hs, rfl⟩ := hf
  exact ⟨p, u, c, pk, g, sig, k, s, h2, hp, h1, h3, h4, hk, h5, h6, hs, rfl⟩

theorem oldInput_iff (x : Json) (ci : CoinInput) : (do CoinInput.fromJson (← legacyInputInfo x)) = .ok ci ↔
    OldSigned x ci.parentId.value ci.fulfillment ∧ ci.parent = none := by
  simp only [bind_iff, legacyInput_iff, C127_input]
  unfold SaysInput
  constructor
  · rintro ⟨_, ⟨u, p, c, pk, g, sig, h1, h2, h3, h4, h5, h6, rfl⟩, p', f', a1, a2, a3, a4, a5⟩
    rw [signedObj_parent] at a1; subst a1
    exact ⟨oldSigned_of h1 h2 h3 h4 h5 h6 a2 ((signedObj_says _ _ _ _).1 ⟨f', a3, a4⟩), a5⟩
  · rintro ⟨⟨p, u, c, pk, g, sig, k, s, h2, hp, h1, h3, h4, hk, h5, h6, hs, e⟩, a5⟩
    obtain ⟨f', a3, a4⟩ := (signedObj_says p pk sig ci.fulfillment).2 ⟨k, s, hk, hs, e⟩
    exact ⟨_, ⟨u, p, c, pk, g, sig, h1, h2, h3, h4, h5, h6, rfl⟩, p, f', (signedObj_parent _ _ _ _).2 rfl, hp, a3, a4, a5⟩

theorem oldStakeInput_iff (x : Json) (ci : StakeInput) : (do StakeInput.fromJson (← legacyInputInfo x)) = .ok ci ↔
    OldSigned x ci.parentId.value ci.fulfillment ∧ ci.parent = .default := by
  simp only [bind_iff, legacyInput_iff, C127_stake_input]
  unfold SaysStakeInput
  constructor
  · rintro ⟨_, ⟨u, p, c, pk, g, sig, h1, h2, h3, h4, h5, h6, rfl⟩, p', f', a1, a2, a3, a4, a5⟩
    rw [signedObj_parent] at a1; subst a1
    exact ⟨oldSigned_of h1 h2 h3 h4 h5 h6 a2 ((signedObj_says _ _ _ _).1 ⟨f', a3, a4⟩), a5⟩
  · rintro ⟨⟨p, u, c, pk, g, sig, k, s, h2, hp, h1, h3, h4, hk, h5, h6, hs, e⟩, a5⟩
    obtain ⟨f', a3, a4⟩ := (signedObj_says p pk sig ci.fulfillment).2 ⟨k, s, hk, hs, e⟩
    exact ⟨_, ⟨u, p, c, pk, g, sig, h1, h2, h3, h4, h5, h6, rfl⟩, p, f', (signedObj_parent _ _ _ _).2 rfl, hp, a3, a4, a5⟩

theorem legacyOutput_iff (x y : Json) : legacyOutputInfo x = .ok y ↔ ∃ v u, FieldOr x "value" (.str ['0']) v ∧ FieldOr x "unlockhash" (.str []) u ∧ y = paidObj v u := by
  unfold legacyOutputInfo
  simp only [getD_bind, pure_iff]
  constructor
  · rintro ⟨v, h1, u, h2, rfl⟩; exact ⟨v, u, h1, h2, rfl⟩
  · rintro ⟨v, u, h1, h2, rfl⟩; exact ⟨v, h1, u, h2, rfl⟩

theorem oldOutput_iff (H : Bytes → Bytes) (x : Json) (co : CoinOutput) : (do CoinOutput.fromJson H (← legacyOutputInfo x)) = .ok co ↔
    (∃ v, FieldOr x "value" (.str ['0']) v ∧ SaysMoney v co.value) ∧ OldPaid H x co.condition ∧ co.id = ⟨[]⟩ := by
  simp only [bind_iff, legacyOutput_iff, C127_output]
  unfold SaysOutput OldPaid
  constructor
  · rintro ⟨_, ⟨v, u, h1, h2, rfl⟩, v', c', a1, a2, a3, a4, a5⟩
    rw [paidObj_value] at a1; subst a1
    obtain ⟨a, g1, g2⟩ := (paidObj_says H _ _ _).1 ⟨c', a3, a4⟩
    exact ⟨⟨_, h1, a2⟩, ⟨u, a, h2, g1, g2⟩, a5⟩
  · rintro ⟨⟨v, h1, a2⟩, ⟨u, a, h2, g1, g2⟩, a5⟩
    obtain ⟨c', a3, a4⟩ := (paidObj_says H v u _).2 ⟨a, g1, g2⟩
    exact ⟨_, ⟨v, u, h1, h2, rfl⟩, v, c', (paidObj_value _ _ _).2 rfl, a2, a3, a4, a5⟩

theorem oldStakeOutput_iff (H : Bytes → Bytes) (x : Json) (co : StakeOutput) : (do StakeOutput.fromJson H (← legacyOutputInfo x)) = .ok co ↔
    (∃ v, FieldOr x "value" (.str ['0']) v ∧ SaysStakes v co.value) ∧ OldPaid H x co.condition ∧ co.id = ⟨[]⟩ := by
  simp only [bind_iff, legacyOutput_iff, C127_stake_output]
  unfold SaysStakeOutput OldPaid
  constructor
  · rintro ⟨_, ⟨v, u, h1, h2, rfl⟩, v', c', a1, a2, a3, a4, a5⟩
    rw [paidObj_value] at a1; subst a1
    obtain ⟨a, g1, g2⟩ := (paidObj_says H _ _ _).1 ⟨c', a3, a4⟩
    exact ⟨⟨_, h1, a2⟩, ⟨u, a, h2, g1, g2⟩, a5⟩
  · rintro ⟨⟨v, h1, a2⟩, ⟨u, a, h2, g1, g2⟩, a5⟩
    obtain ⟨c', a3, a4⟩ := (paidObj_says H v u _).2 ⟨a, g1, g2⟩
    exact ⟨_, ⟨v, u, h1, h2, rfl⟩, v, c', (paidObj_value _ _ _).2 rfl, a2, a3, a4, a5⟩

/-- The arbitrary data of a transaction of the first version. -/
def oldData (d : Json) : Res Bytes := do if ← d.has "arbitrarydata" then base64OfJson (← d.orDefault "arbitrarydata" (.str [])) else pure []

theorem oldData_iff (d : Json) (b : Bytes) : oldData d = .ok b ↔
    Absent d "arbitrarydata" ∧ b = [] ∨ ∃ v w, FieldIs d "arbitrarydata" w ∧ Filled d "arbitrarydata" (.str []) v ∧ SaysData v b := by
  obtain ⟨a1, a2, a3⟩ := has_iff d "arbitrarydata"
  unfold oldData
  simp only [bind_iff]
  constructor
  · rintro ⟨x, hx, h⟩
    cases x with
    | false => simp only [Bool.false_eq_true, if_false] at h; cases h; exact .inl ⟨a1.1 hx, rfl⟩
    | true =>
      simp only [if_true, bind_iff, orDefault_iff, data_iff] at h
      obtain ⟨v, hv, h⟩ := h
      have hw : ∃ w, FieldIs d "arbitrarydata" w := by
        rcases hv with ⟨hl, -⟩ | ⟨w, hw, -⟩
        · rw [a1.2 (.inl hl)] at hx; cases hx
        · exact ⟨w, hw⟩
      obtain ⟨w, hw⟩ := hw
      exact .inr ⟨v, w, hw, hv, h⟩
  · rintro (⟨h, rfl⟩ | ⟨v, w, hw, hv, h⟩)
    · exact ⟨false, a1.2 h, rfl⟩
    · refine ⟨true, a3 ⟨w, hw⟩, ?_⟩
      simp only [if_true, bind_iff, orDefault_iff, data_iff]
      exact ⟨v, hv, h⟩

theorem old_iff (H : Bytes → Bytes) (j : Json) (t : TxV1) : TxV1.legacyOfJson H j = .ok t ↔ ∃ d, FieldIs j "data" d ∧ SaysOld H d t := by
  obtain ⟨a1, a2, a3⟩ := has_iff j "data"
  unfold TxV1.legacyOfJson
  constructor
  · intro h
    obtain ⟨b, hb, h⟩ := bind_ok h
    cases b with
    | false => cases h
    | true =>
      simp only [Bool.not_true, Bool.false_eq_true, if_false] at h
      obtain ⟨d, hd, h⟩ := bind_ok h
      rw [idx_iff] at hd
      obtain ⟨x1, e1, h⟩ := bind_ok h
      obtain ⟨ci, f1, h⟩ := bind_ok h
      obtain ⟨x2, e2, h⟩ := bind_ok h
      obtain ⟨co, f2, h⟩ := bind_ok h
      obtain ⟨x3, e3, h⟩ := bind_ok h
      obtain ⟨si, f3, h⟩ := bind_ok h
      obtain ⟨x4, e4, h⟩ := bind_ok h
      obtain ⟨so, f4, h⟩ := bind_ok h
      obtain ⟨x5, e5, h⟩ := bind_ok h
      obtain ⟨mf, f5, h⟩ := bind_ok h
      have h1 := (legacyList_iff oldInput_iff d "coininputs" ci).1 ⟨x1, e1, f1⟩
      have h2 := (legacyList_iff (oldOutput_iff H) d "coinoutputs" co).1 ⟨x2, e2, f2⟩
      have h3 := (legacyList_iff oldStakeInput_iff d "blockstakeinputs" si).1 ⟨x3, e3, f3⟩
      have h4 := (legacyList_iff (oldStakeOutput_iff H) d "blockstakeoutputs" so).1 ⟨x4, e4, f4⟩
      have h5 := (legacyList_iff money_iff d "minerfees" mf).1 ⟨x5, e5, f5⟩
      obtain ⟨y, hy, h⟩ := bind_ok h
      have fin : ∃ ad, oldData d = .ok ad ∧ t = { coinInputs := ci, coinOutputs := co, stakeInputs := si, stakeOutputs := so, minerFees := mf, data := ad, legacy := true } := by
        unfold oldData
        cases y with
        | false =>
          simp only [Bool.false_eq_true, if_false] at h
          obtain ⟨ad, e, h⟩ := bind_ok h
          cases h
          exact ⟨ad, by rw [hy]; exact e, rfl⟩
        | true =>
          simp only [if_true] at h
          obtain ⟨v, hv, h⟩ := bind_ok h
          obtain ⟨ad, e, h⟩ := bind_ok h
          cases h
          exact ⟨ad, bind_iff.2 ⟨true, hy, bind_iff.2 ⟨v, hv, e⟩⟩, rfl⟩
      obtain ⟨ad, h6, rfl⟩ := fin
      exact ⟨d, hd, h1, h2, h3, h4, h5, (oldData_iff _ _).1 h6, rfl⟩
  · rintro ⟨d, hd, h1, h2, h3, h4, h5, h6, h7⟩
    refine bind_iff.2 ⟨true, a3 ⟨d, hd⟩, ?_⟩
    simp only [Bool.not_true, Bool.false_eq_true, if_false]
    refine bind_iff.2 ⟨d, (idx_iff _ _ _).2 hd, ?_⟩
    obtain ⟨x1, e1, f1⟩ := (legacyList_iff oldInput_iff d "coininputs" _).2 h1
    obtain ⟨x2, e2, f2⟩ := (legacyList_iff (oldOutput_iff H) d "coinoutputs" _).2 h2
    obtain ⟨x3, e3, f3⟩ := (legacyList_iff oldStakeInput_iff d "blockstakeinputs" _).2 h3
    obtain ⟨x4, e4, f4⟩ := (legacyList_iff (oldStakeOutput_iff H) d "blockstakeoutputs" _).2 h4
    obtain ⟨x5, e5, f5⟩ := (legacyList_iff money_iff d "minerfees" _).2 h5
    refine bind_iff.2 ⟨x1, e1, bind_iff.2 ⟨_, f1, bind_iff.2 ⟨x2, e2, bind_iff.2 ⟨_, f2, bind_iff.2 ⟨x3, e3, bind_iff.2 ⟨_, f3, bind_iff.2 ⟨x4, e4, bind_iff.2 ⟨_, f4, bind_iff.2 ⟨x5, e5, bind_iff.2 ⟨_, f5, ?_⟩⟩⟩⟩⟩⟩⟩⟩⟩⟩
    have h6 := (oldData_iff _ _).2 h6
    unfold oldData at h6
    obtain ⟨y, hy, h6⟩ := bind_ok h6
    refine bind_iff.2 ⟨y, hy, ?_⟩
    cases y with
    | false =>
      simp only [Bool.false_eq_true, if_false] at h6 ⊢
      refine bind_iff.2 ⟨_, h6, ?_⟩
      rw [pure_iff, ← h7]
    | true =>
      simp only [if_true] at h6 ⊢
      obtain ⟨v, hv, h6⟩ := bind_ok h6
      refine bind_iff.2 ⟨v, hv, bind_iff.2 ⟨_, h6, ?_⟩⟩
      rw [pure_iff, ← h7]

theorem version_iff (j : Json) (n : Int) (hn : n ≠ -1) : (∃ v, j.getD "version" (.int (-1)) = .ok v ∧ v.asInt? = some n) ↔ ∃ v, FieldIs j "version" v ∧ EqualTo v n := by
  simp only [getD_iff, equalTo_iff, FieldOr]
  constructor
  · rintro ⟨v, h | ⟨-, rfl⟩, e⟩
    · exact ⟨v, h, e⟩
    · rcases e with e | ⟨_, e, -⟩ | ⟨e, -⟩ | ⟨e, -⟩
      · exact absurd (Json.int.inj e).symm hn
      all_goals cases e
  · rintro ⟨v, h, e⟩; exact ⟨v, .inl h, e⟩

/-- **C127** (transactions). A JSON value is read as a transaction exactly when it says so, field by field; it is then this transaction and no other. Everything else is refused. -/
theorem C127_transaction (L : IpLib) (H : Bytes → Bytes) (j : Json) (t : Tx) : Tx.fromJson L H j = .ok t ↔ SaysTx L H j t := by
  constructor
  · intro h
    cases j with
    | obj l =>
      simp only [Tx.fromJson] at h
      obtain ⟨v, hv, h⟩ := bind_ok h
      have key : ∀ n : Int, v.asInt? = some n → n ≠ -1 → ∃ v, FieldIs (.obj l) "version" v ∧ EqualTo v n := fun n e hn => (version_iff _ _ hn).1 ⟨v, hv, e⟩
      split at h
      all_goals rename_i e
      case h_11 => cases h
      case h_10 =>
        obtain ⟨x, hx, h⟩ := bind_ok h
        cases h
        obtain ⟨w, g1, g2⟩ := key _ e (by decide)
        obtain ⟨d, hd, hs⟩ := (old_iff _ _ _).1 hx
        exact .v0 w d x g1 g2 hd hs
      all_goals
        obtain ⟨d, hd, h⟩ := bind_ok h
        obtain ⟨x, hx, h⟩ := bind_ok h
        cases h
        obtain ⟨w, g1, g2⟩ := key _ e (by decide)
        rw [getD_iff] at hd
      · exact .v1 w d x g1 g2 hd ((v1_iff _ _ _).1 hx)
      · exact .v144 w d x g1 g2 hd ((v144_iff _ _ _ _).1 hx)
      · exact .v145 w d x g1 g2 hd ((v145_iff _ _ _ _).1 hx)
      · exact .v146 w d x g1 g2 hd ((v146_iff _ _ _).1 hx)
      · exact .v208 w d x g1 g2 hd ((v208_iff _ _ _).1 hx)
      · exact .v209 w d x g1 g2 hd ((v209_iff _ _ _).1 hx)
      · exact .v210 w d x g1 g2 hd ((v210_iff _ _ _).1 hx)
      · exact .v128 w d x g1 g2 hd ((v128_iff _ _ _).1 hx)
      · exact .v129 w d x g1 g2 hd ((v129_iff _ _ _).1 hx)
    | _ => cases h
  · intro h
    have key : ∀ {v : Json} {n : Int}, FieldIs j "version" v → EqualTo v n → ∃ l, j = .obj l ∧ j.getD "version" (.int (-1)) = .ok v ∧ v.asInt? = some n := by
      intro v n h1 h2
      have h3 := (getD_iff j "version" (.int (-1)) v).2 (.inl h1)
      obtain ⟨l, e, -⟩ := h1
      exact ⟨l, e, h3, (equalTo_iff _ _).2 h2⟩
    cases h with
    | v0 v d t h1 h2 h3 h4 =>
      obtain ⟨l, e, g1, g2⟩ := key h1 h2
      have := (old_iff H j t).2 ⟨d, h3, h4⟩
      subst e
      simp only [Tx.fromJson, g1, g2, this, bind, Except.bind]; rfl
    | v1 v d t h1 h2 h3 h4 =>
      obtain ⟨l, e, g1, g2⟩ := key h1 h2
      have g3 := (getD_iff j "data" (.obj []) d).2 h3
      have := (v1_iff _ _ _).2 h4
      subst e
      simp only [Tx.fromJson, g1, g2, g3, this, bind, Except.bind]; rfl
    | v128 v d t h1 h2 h3 h4 =>
      obtain ⟨l, e, g1, g2⟩ := key h1 h2
      have g3 := (getD_iff j "data" (.obj []) d).2 h3
      have := (v128_iff _ _ _).2 h4
      subst e
      simp only [Tx.fromJson, g1, g2, g3, this, bind, Except.bind]; rfl
    | v129 v d t h1 h2 h3 h4 =>
      obtain ⟨l, e, g1, g2⟩ := key h1 h2
      have g3 := (getD_iff j "data" (.obj []) d).2 h3
      have := (v129_iff _ _ _).2 h4
      subst e
      simp only [Tx.fromJson, g1, g2, g3, this, bind, Except.bind]; rfl
    | v144 v d t h1 h2 h3 h4 =>
      obtain ⟨l, e, g1, g2⟩ := key h1 h2
      have g3 := (getD_iff j "data" (.obj []) d).2 h3
      have := (v144_iff _ _ _ _).2 h4
      subst e
      simp only [Tx.fromJson, g1, g2, g3, this, bind, Except.bind]; rfl
    | v145 v d t h1 h2 h3 h4 =>
      obtain ⟨l, e, g1, g2⟩ := key h1 h2
      have g3 := (getD_iff j "data" (.obj []) d).2 h3
      have := (v145_iff _ _ _ _).2 h4
      subst e
      simp only [Tx.fromJson, g1, g2, g3, this, bind, Except.bind]; rfl
    | v146 v d t h1 h2 h3 h4 =>
      obtain ⟨l, e, g1, g2⟩ := key h1 h2
      have g3 := (getD_iff j "data" (.obj []) d).2 h3
      have := (v146_iff _ _ _).2 h4
      subst e
      simp only [Tx.fromJson, g1, g2, g3, this, bind, Except.bind]; rfl
    | v208 v d t h1 h2 h3 h4 =>
      obtain ⟨l, e, g1, g2⟩ := key h1 h2
      have g3 := (getD_iff j "data" (.obj []) d).2 h3
      have := (v208_iff _ _ _).2 h4
      subst e
      simp only [Tx.fromJson, g1, g2, g3, this, bind, Except.bind]; rfl
    | v209 v d t h1 h2 h3 h4 =>
      obtain ⟨l, e, g1, g2⟩ := key h1 h2
      have g3 := (getD_iff j "data" (.obj []) d).2 h3
      have := (v209_iff _ _ _).2 h4
      subst e
      simp only [Tx.fromJson, g1, g2, g3, this, bind, Except.bind]; rfl
    | v210 v d t h1 h2 h3 h4 =>
      obtain ⟨l, e, g1, g2⟩ := key h1 h2
      have g3 := (getD_iff j "data" (.obj []) d).2 h3
      have := (v210_iff _ _ _).2 h4
      subst e
      simp only [Tx.fromJson, g1, g2, g3, this, bind, Except.bind]; rfl
/-- A payment of the present version and one of the first, which spend the same output. -/
def paymentJson : Json := .obj [("version", .int 1), ("data", .obj [("coininputs", .arr [inputJson]), ("coinoutputs", .arr [.obj [("value", .str ['5']), ("condition", .obj [])]]),
  ("minerfees", .arr [.str ['1']]), ("arbitrarydata", .null)])]
@[inherit_doc paymentJson]
def oldPaymentJson : Json := .obj [("version", .int 0), ("data", .obj [("coininputs", .arr [.obj [("parentid", .str (toHex (List.replicate 32 5))),
  ("unlocker", .obj [("condition", .obj [("publickey", .str ("ed25519:".toList ++ toHex (List.replicate 32 7)))])])]]),
  ("coinoutputs", .arr [.obj [("value", .str ['5']), ("unlockhash", .str nilText)]]), ("minerfees", .arr [.str ['1']])])]
/-- What these two say. -/
def paymentOf (c : Condition) (old : Bool) : TxV1 where
  coinInputs := [⟨⟨List.replicate 32 5⟩, .single ⟨.ed25519, ⟨List.replicate 32 7⟩⟩ (some ⟨[], false⟩), none⟩]
  coinOutputs := [⟨⟨some ⟨false, 5, -9⟩⟩, c, ⟨[]⟩⟩]
  minerFees := [⟨some ⟨false, 1, -9⟩⟩]
  legacy := old
example (L : IpLib) : SaysTx L toyHash paymentJson (.v1 (paymentOf .nil false)) :=
  (C127_transaction _ _ _ _).1 (bind_iff.2 ⟨_, rfl, bind_iff.2 ⟨_, rfl, bind_iff.2 ⟨_, show TxV1.ofJson _ _ = _ by decide +kernel, rfl⟩⟩⟩)
example (L : IpLib) : SaysTx L toyHash oldPaymentJson (.v1 (paymentOf (.unlockHash ⟨0, ⟨List.replicate 32 0⟩⟩) true)) :=
  (C127_transaction _ _ _ _).1 (bind_iff.2 ⟨_, rfl, bind_iff.2 ⟨_, show TxV1.legacyOfJson _ _ = _ by decide +kernel, rfl⟩⟩)
/-- A payment of which one input is broken, one of an unknown version and one of the first version without a description are refused. -/
example (L : IpLib) (t : Tx) : ¬ SaysTx L toyHash (.obj [("version", .int 1), ("data", .obj [("coininputs", .arr [inputJson, .obj []])])]) t ∧
    ¬ SaysTx L toyHash (.obj [("version", .int 2), ("data", .obj [])]) t ∧ ¬ SaysTx L toyHash (.obj [("version", .int 0)]) t := by
  simp only [← C127_transaction]
  refine ⟨fun h => ?_, fun h => ?_, fun h => ?_⟩
  · obtain ⟨_, e1, h⟩ := bind_ok h
    cases e1
    obtain ⟨_, e2, h⟩ := bind_ok h
    cases e2
    obtain ⟨x, hx, -⟩ := bind_ok h
    exact refused (by decide +kernel) x hx
  · cases h
  · cases h

end TF.Props
