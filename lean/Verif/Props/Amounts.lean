import Verif.Spec.Amounts
import Verif.Props.Signing
import Verif.Props.Primitive
/-! # C116: amounts in payments do not change afterwards -/
namespace TF.Props
open TF TF.Spec

/-! ## Helpers -/

theorem cellAt_append {cells x : List Currency} {r : Nat} (h : r < cells.length) : cellAt (cells ++ x) r = cellAt cells r := by
  unfold cellAt
  rw [List.getD_eq_getElem?_getD, List.getD_eq_getElem?_getD, List.getElem?_append_left h]

theorem cellAt_new (cells : List Currency) (c : Currency) : cellAt (cells ++ [c]) cells.length = c := by
  unfold cellAt
  rw [List.getD_eq_getElem?_getD, List.getElem?_append_right (Nat.le_refl _)]
  simp

theorem cellAt_set {cells : List Currency} {r : Nat} (h : r < cells.length) (c : Currency) : cellAt (cells.set r c) r = c := by
  unfold cellAt
  rw [List.getD_eq_getElem?_getD, List.getElem?_set_self h]; rfl

theorem cellAt_other {cells : List Currency} {r r' : Nat} (h : r ≠ r') (c : Currency) : cellAt (cells.set r c) r' = cellAt cells r' := by
  unfold cellAt
  rw [List.getD_eq_getElem?_getD, List.getD_eq_getElem?_getD, List.getElem?_set_ne h]

/-- The variables hold the numbers. -/
structure VarsFit (h : Purse) (s : Ledger) : Prop where
  len : h.vars.length = s.vars.length
  get : ∀ (i r : Nat), h.vars[i]? = some r → r < h.cells.length ∧ s.vars[i]? = some (cellAt h.cells r)
  inj : ∀ (i j r : Nat), h.vars[i]? = some r → h.vars[j]? = some r → i = j

theorem vars_none {h : Purse} {s : Ledger} (hv : VarsFit h s) {i : Nat} (hi : h.vars[i]? = none) : s.vars[i]? = none := by
  rw [List.getElem?_eq_none_iff] at hi ⊢
  rw [← hv.len]; exact hi

/-- More cells. -/
theorem vars_grow {h : Purse} {s : Ledger} (hv : VarsFit h s) (x : List Currency) (t : List PayObj) (t' : List (List CoinOutput × List Currency)) :
    VarsFit ⟨h.cells ++ x, h.vars, t⟩ ⟨s.vars, t'⟩ := by
  refine ⟨hv.len, fun i r hi => ?_, hv.inj⟩
  obtain ⟨h1, h2⟩ := hv.get i r hi
  refine ⟨by simp only [List.length_append]; omega, ?_⟩
  rw [cellAt_append h1]; exact h2

theorem vars_same {h : Purse} {s : Ledger} (hv : VarsFit h s) (t : List PayObj) (t' : List (List CoinOutput × List Currency)) :
    VarsFit ⟨h.cells, h.vars, t⟩ ⟨s.vars, t'⟩ := ⟨hv.len, hv.get, hv.inj⟩

theorem vars_new {h : Purse} {s : Ledger} (hv : VarsFit h s) (c : Currency) (t : List PayObj) (t' : List (List CoinOutput × List Currency)) :
    VarsFit ⟨h.cells ++ [c], h.vars ++ [h.cells.length], t⟩ ⟨s.vars ++ [c], t'⟩ := by
  have get : ∀ (i r : Nat), (h.vars ++ [h.cells.length])[i]? = some r → (h.vars[i]? = some r ∧ r < h.cells.length) ∨ (i = h.vars.length ∧ r = h.cells.length) := by
    intro i r hi
    by_cases hl : i < h.vars.length
    · rw [List.getElem?_append_left hl] at hi
      exact .inl ⟨hi, (hv.get i r hi).1⟩
    · rw [List.getElem?_append_right (by omega)] at hi
      have := (List.getElem?_eq_some_iff.1 hi).1
      simp at this
      have e : i = h.vars.length := by omega
      subst e
      simp at hi
      exact .inr ⟨rfl, hi.symm⟩
  refine ⟨by simp [hv.len], fun i r hi => ?_, fun i j r hi hj => ?_⟩
  · rcases get i r hi with ⟨h1, h2⟩ | ⟨e1, e2⟩
    · refine ⟨by simp; omega, ?_⟩
      rw [cellAt_append h2, List.getElem?_append_left (by rw [← hv.len]; exact (List.getElem?_eq_some_iff.1 h1).1)]
      exact (hv.get i r h1).2
    · subst e1 e2
      refine ⟨by simp, ?_⟩
      rw [cellAt_new, hv.len, List.getElem?_append_right (Nat.le_refl _)]
      simp
  · rcases get i r hi with ⟨h1, h2⟩ | ⟨h1, h2⟩ <;> rcases get j r hj with ⟨h3, h4⟩ | ⟨h3, h4⟩
    · exact hv.inj i j r h1 h3
    · omega
    · omega
    · exact h1.trans h3.symm

theorem vars_change {h : Purse} {s : Ledger} (hv : VarsFit h s) {i r : Nat} (hi : h.vars[i]? = some r) (f : Currency → Currency) (t : List PayObj)
    (t' : List (List CoinOutput × List Currency)) : VarsFit ⟨h.cells.set r (f (cellAt h.cells r)), h.vars, t⟩ ⟨s.vars.modify i f, t'⟩ := by
  refine ⟨by simp [hv.len], fun i' r' hi' => ?_, hv.inj⟩
  obtain ⟨h1, h2⟩ := hv.get i' r' hi'
  refine ⟨by simpa using h1, ?_⟩
  rw [List.getElem?_modify, h2]
  by_cases e : i = i'
  · subst e
    rw [hi] at hi'; cases hi'
    simp [cellAt_set h1]
  · have : r ≠ r' := fun e' => e (hv.inj i i' r hi (e' ▸ hi'))
    simp [e, cellAt_other this]

/-! ## Variables and fees -/

theorem modify_none {α : Type} (l : List α) (j : Nat) (f : α → α) (h : l.length ≤ j) : l.modify j f = l := by
  apply List.ext_getElem?
  intro k
  rw [List.getElem?_modify]
  by_cases e : j = k
  · subst e; rw [List.getElem?_eq_none h]; rfl
  · simp [e]

theorem map_modify {α β : Type} (g : α → β) (l : List α) (j : Nat) (f : β → β) {p p' : α} (h : l[j]? = some p) (hp : g p' = f (g p)) :
    (l.set j p').map g = (l.map g).modify j f := by
  apply List.ext_getElem?
  intro k
  rw [List.getElem?_map, List.getElem?_set, List.getElem?_modify, List.getElem?_map]
  by_cases e : j = k
  · subst e
    simp [(List.getElem?_eq_some_iff.1 h).1, h, hp]
    have := (List.getElem?_eq_some_iff.1 h).2
    simp [this, hp]
  · simp [e]

theorem map_modify_same {α β γ : Type} (g : α → γ) (k : β → γ) (l : List α) (m : List β) (j : Nat) (f : β → β) {p p' : α} (h : l[j]? = some p)
    (hl : l.map g = m.map k) (hp : g p' = g p) (hf : ∀ b, k (f b) = k b) : (l.set j p').map g = (m.modify j f).map k := by
  have h1 : (m.modify j f).map k = m.map k := by
    apply List.ext_getElem?
    intro i
    rw [List.getElem?_map, List.getElem?_modify, List.getElem?_map]
    by_cases e : j = i
    · cases m[i]? <;> simp [e, hf]
    · cases m[i]? <;> simp [e]
  rw [h1, ← hl]
  rw [map_modify g l j id h hp]
  apply List.ext_getElem?
  intro i
  rw [List.getElem?_modify]
  by_cases e : j = i <;> cases (l.map g)[i]? <;> simp [e]

/-- The fees are the numbers' fees. -/
def FeesFit (h : Purse) (s : Ledger) : Prop := h.txs.map (·.fees) = s.txs.map Prod.snd

theorem fees_len {h : Purse} {s : Ledger} (hf : FeesFit h s) : h.txs.length = s.txs.length := by
  have := congrArg List.length hf
  simpa using this

theorem modify_fees (m : List (List CoinOutput × List Currency)) (j : Nat) (f : List CoinOutput × List Currency → List CoinOutput × List Currency)
    (hf : ∀ b, (f b).2 = b.2) : (m.modify j f).map Prod.snd = m.map Prod.snd := by
  apply List.ext_getElem?
  intro i
  rw [List.getElem?_map, List.getElem?_modify, List.getElem?_map]
  by_cases e : j = i
  · cases m[i]? <;> simp [e, hf]
  · cases m[i]? <;> simp [e]

theorem set_fees (l : List PayObj) (j : Nat) {p p' : PayObj} (h : l[j]? = some p) (hp : p'.fees = p.fees) :
    (l.set j p').map (·.fees) = l.map (·.fees) := by
  apply List.ext_getElem?
  intro i
  rw [List.getElem?_map, List.getElem?_set, List.getElem?_map]
  by_cases e : j = i
  · subst e; simp [(List.getElem?_eq_some_iff.1 h).1, hp]
    have := (List.getElem?_eq_some_iff.1 h).2
    simp [this]
  · simp [e]

/-- One step. -/
theorem vars_step {h : Purse} {s : Ledger} (hv : VarsFit h s) (hf : FeesFit h s) (a : Deal) (ha : ∀ j k op o, a ≠ .changeOutput j k op o) :
    VarsFit (h.step a) (s.step a) ∧ FeesFit (h.step a) (s.step a) := by
  have hlen := fees_len hf
  cases a with
  | amount c => exact ⟨vars_new hv c _ _, hf⟩
  | payment =>
    refine ⟨vars_same hv _ _, ?_⟩
    simp only [FeesFit, Purse.step, Ledger.step, List.map_append] at hf ⊢
    rw [hf]; rfl
  | change i op o =>
    simp only [Purse.step, Ledger.step]
    cases hi : h.vars[i]? with
    | none =>
      have := List.getElem?_eq_none_iff.1 hi
      rw [modify_none s.vars i _ (by rw [← hv.len]; exact this)]
      exact ⟨hv, hf⟩
    | some r => exact ⟨vars_change hv hi (fun c => op.apply c o) _ _, hf⟩
  | output j i c =>
    simp only [Purse.step, Ledger.step]
    cases hi : h.vars[i]? with
    | none =>
      rw [vars_none hv hi]
      cases h.txs[j]? <;> exact ⟨hv, hf⟩
    | some r =>
      rw [(hv.get i r hi).2]
      cases hj : h.txs[j]? with
      | none =>
        refine ⟨vars_same hv _ _, ?_⟩
        simp only [FeesFit]
        rw [modify_fees (hf := by intro _; rfl)]; exact hf
      | some p =>
        refine ⟨vars_same hv _ _, ?_⟩
        simp only [FeesFit]
        rw [modify_fees (hf := by intro _; rfl)]
        refine (set_fees _ _ hj ?_).trans hf
        rfl
  | outputOf j v c =>
    simp only [Purse.step, Ledger.step]
    have key : ∀ x : Currency, VarsFit h { s with txs := s.txs.modify j fun p => (p.1 ++ [⟨x, c, ⟨[]⟩⟩], p.2) } ∧
        FeesFit h { s with txs := s.txs.modify j fun p => (p.1 ++ [⟨x, c, ⟨[]⟩⟩], p.2) } := by
      intro x
      refine ⟨vars_same hv _ _, ?_⟩
      simp only [FeesFit]
      rw [modify_fees (hf := by intro _; rfl)]; exact hf
    have key2 : ∀ (x : Currency) (p : PayObj), h.txs[j]? = some p →
        VarsFit { h with cells := h.cells ++ [x], txs := h.txs.set j { p with outs := p.outs ++ [⟨h.cells.length, c, ⟨[]⟩⟩] } }
          { s with txs := s.txs.modify j fun p => (p.1 ++ [⟨x, c, ⟨[]⟩⟩], p.2) } ∧
        FeesFit { h with cells := h.cells ++ [x], txs := h.txs.set j { p with outs := p.outs ++ [⟨h.cells.length, c, ⟨[]⟩⟩] } }
          { s with txs := s.txs.modify j fun p => (p.1 ++ [⟨x, c, ⟨[]⟩⟩], p.2) } := by
      intro x p hp
      refine ⟨vars_grow hv [x] _ _, ?_⟩
      simp only [FeesFit]
      rw [modify_fees (hf := by intro _; rfl)]
      exact (set_fees (p' := { p with outs := p.outs ++ [⟨h.cells.length, c, ⟨[]⟩⟩] }) _ _ hp rfl).trans hf
    cases hj : h.txs[j]? with
    | none => cases v <;> cases Currency.set _ <;> first | exact ⟨hv, hf⟩ | exact key _
    | some p => cases v <;> cases Currency.set _ <;> first | exact ⟨hv, hf⟩ | exact key2 _ p hj
  | fee j i =>
    simp only [Purse.step, Ledger.step]
    cases hi : h.vars[i]? with
    | none =>
      rw [vars_none hv hi]
      cases h.txs[j]? <;> exact ⟨hv, hf⟩
    | some r =>
      rw [(hv.get i r hi).2]
      cases hj : h.txs[j]? with
      | none =>
        refine ⟨vars_same hv _ _, ?_⟩
        have := List.getElem?_eq_none_iff.1 hj
        simp only [FeesFit]
        rw [modify_none s.txs j _ (by omega)]; exact hf
      | some p =>
        refine ⟨vars_same hv _ _, ?_⟩
        simp only [FeesFit] at hf ⊢
        rw [map_modify (·.fees) h.txs j (fun l => l ++ [⟨some (cellAt h.cells r).value⟩]) hj rfl, hf]
        apply List.ext_getElem?
        intro k
        rw [List.getElem?_modify, List.getElem?_map, List.getElem?_map, List.getElem?_modify]
        by_cases e : j = k <;> cases s.txs[k]? <;> simp [e]
  | outputs dst src =>
    simp only [Purse.step, Ledger.step]
    have keep : ∀ q : List CoinOutput × List Currency, FeesFit h { s with txs := s.txs.modify dst fun p => (q.1, p.2) } := by
      intro q
      simp only [FeesFit]
      rw [modify_fees (hf := by intro _; rfl)]; exact hf
    cases hd : h.txs[dst]? with
    | none => cases s.txs[src]? <;> first | exact ⟨hv, hf⟩ | exact ⟨vars_same hv _ _, keep _⟩
    | some p =>
      cases hs : h.txs[src]? with
      | none => cases s.txs[src]? <;> first | exact ⟨hv, hf⟩ | exact ⟨vars_same hv _ _, keep _⟩
      | some q =>
        have hlt := (List.getElem?_eq_some_iff.1 hs).1
        rw [List.getElem?_eq_getElem (l := s.txs) (by omega)]
        exact ⟨vars_same hv _ _, (set_fees (p' := { p with outs := q.outs }) _ _ hd rfl).trans (keep _)⟩
  | changeOutput j k op o => exact absurd rfl (ha j k op o)

/-! ## Outputs -/

/-- What is seen of a payment. -/
def look (cells : List Currency) (p : PayObj) : List CoinOutput × List Currency := (p.outs.map (·.load cells), p.fees)

/-- The payments are the numbers' payments, and the variables their outputs hold are among the given ones. -/
structure Fits (g : Nat → Prop) (h : Purse) (s : Ledger) : Prop where
  vars : VarsFit h s
  txs : s.txs = h.txs.map (look h.cells)
  refs : ∀ p ∈ h.txs, ∀ o ∈ p.outs, o.ref < h.cells.length
  given : ∀ p ∈ h.txs, ∀ o ∈ p.outs, ∀ i : Nat, h.vars[i]? = some o.ref → g i

theorem look_same {cells cells' : List Currency} {p : PayObj} (h : ∀ o ∈ p.outs, cellAt cells' o.ref = cellAt cells o.ref) : look cells' p = look cells p := by
  unfold look
  congr 1
  apply List.map_congr_left
  intro o ho
  simp only [OutObj.load, h o ho]

theorem txs_same {cells cells' : List Currency} {l : List PayObj} (h : ∀ p ∈ l, ∀ o ∈ p.outs, cellAt cells' o.ref = cellAt cells o.ref) :
    l.map (look cells') = l.map (look cells) := List.map_congr_left fun p hp => look_same (h p hp)

theorem mem_set_cases {α : Type} {l : List α} {j : Nat} {a x : α} (h : x ∈ l.set j a) : x ∈ l ∨ x = a := by
  rcases List.mem_or_eq_of_mem_set h with h | h
  · exact .inl h
  · exact .inr h

/-- Adding an output. -/
theorem fits_output {g : Nat → Prop} {cells : List Currency} {vars : List Nat} {txs : List PayObj} {s : Ledger} (f : Fits g ⟨cells, vars, txs⟩ s) {j : Nat}
    {p : PayObj} (hj : txs[j]? = some p) {r : Nat} (hr : r < cells.length) (c : Condition) (g' : Nat → Prop) (hg : ∀ i, g i → g' i)
    (hg' : ∀ i : Nat, vars[i]? = some r → g' i) :
    Fits g' ⟨cells, vars, txs.set j { p with outs := p.outs ++ [⟨r, c, ⟨[]⟩⟩] }⟩
      { s with txs := s.txs.modify j fun p => (p.1 ++ [⟨cellAt cells r, c, ⟨[]⟩⟩], p.2) } := by
  have hp := List.mem_of_getElem? hj
  have mem : ∀ q ∈ txs.set j { p with outs := p.outs ++ [⟨r, c, ⟨[]⟩⟩] }, ∀ o ∈ q.outs, (∃ q ∈ txs, o ∈ q.outs) ∨ o.ref = r := by
    intro q hq o ho
    rcases mem_set_cases hq with hq | rfl
    · exact .inl ⟨q, hq, ho⟩
    · rcases List.mem_append.1 ho with ho | ho
      · exact .inl ⟨p, hp, ho⟩
      · rw [List.mem_singleton.1 ho]; exact .inr rfl
  refine ⟨vars_same f.vars _ _, ?_, ?_, ?_⟩
  · show s.txs.modify j _ = _
    rw [f.txs]
    refine (map_modify (look cells) txs j _ hj ?_).symm
    simp [look, OutObj.load]
  · intro q hq o ho
    rcases mem q hq o ho with ⟨q', hq', ho'⟩ | e
    · exact f.refs q' hq' o ho'
    · rw [e]; exact hr
  · intro q hq o ho i hi
    rcases mem q hq o ho with ⟨q', hq', ho'⟩ | e
    · exact hg i (f.given q' hq' o ho' i hi)
    · exact hg' i (e ▸ hi)

theorem fits_mono {g g' : Nat → Prop} {h : Purse} {s : Ledger} (f : Fits g h s) (hg : ∀ i, g i → g' i) : Fits g' h s :=
  ⟨f.vars, f.txs, f.refs, fun p hp o ho i hi => hg i (f.given p hp o ho i hi)⟩

theorem fits_grow {g : Nat → Prop} {h : Purse} {s : Ledger} (f : Fits g h s) (x : Currency) : Fits g { h with cells := h.cells ++ [x] } s := by
  refine ⟨vars_grow f.vars [x] _ _, ?_, ?_, f.given⟩
  · rw [f.txs]
    exact (txs_same fun p hp o ho => cellAt_append (f.refs p hp o ho)).symm
  · intro p hp o ho
    have := f.refs p hp o ho
    simp only [List.length_append]; omega

theorem txs_none {g : Nat → Prop} {h : Purse} {s : Ledger} (f : Fits g h s) {j : Nat} (hj : h.txs[j]? = none)
    (u : List CoinOutput × List Currency → List CoinOutput × List Currency) : ({ s with txs := s.txs.modify j u } : Ledger) = s := by
  have := List.getElem?_eq_none_iff.1 hj
  rw [modify_none s.txs j u (by rw [f.txs, List.length_map]; exact this)]

/-- One step. -/
theorem fits_step {g : Nat → Prop} {h : Purse} {s : Ledger} (f : Fits g h s) (a : Deal) (ha : ∀ j k op o, a ≠ .changeOutput j k op o)
    (hc : ∀ i op o, a = .change i op o → ¬ g i) : Fits (fun i => g i ∨ ∃ j c, a = .output j i c) (h.step a) (s.step a) := by
  have weak : ∀ {h : Purse} {s : Ledger}, Fits g h s → Fits (fun i => g i ∨ ∃ j c, a = .output j i c) h s := fun f => fits_mono f fun _ => .inl
  cases a with
  | amount c =>
    refine weak ⟨vars_new f.vars c _ _, ?_, ?_, ?_⟩
    · exact (fits_grow f c).txs
    · exact (fits_grow f c).refs
    · intro p hp o ho i hi
      have hr := f.refs p hp o ho
      by_cases hl : i < h.vars.length
      · rw [show (h.step (.amount c)).vars = h.vars ++ [h.cells.length] from rfl, List.getElem?_append_left hl] at hi
        exact f.given p hp o ho i hi
      · rw [show (h.step (.amount c)).vars = h.vars ++ [h.cells.length] from rfl, List.getElem?_append_right (by omega)] at hi
        have h1 := (List.getElem?_eq_some_iff.1 hi).2
        have h2 := (List.getElem?_eq_some_iff.1 hi).1
        simp at h1 h2
        omega
  | payment =>
    refine weak ⟨vars_same f.vars _ _, ?_, ?_, ?_⟩
    · simp only [Purse.step, Ledger.step, List.map_append, f.txs]; rfl
    · intro p hp o ho
      rcases List.mem_append.1 hp with hp | hp
      · exact f.refs p hp o ho
      · rw [List.mem_singleton.1 hp] at ho; cases ho
    · intro p hp o ho
      rcases List.mem_append.1 hp with hp | hp
      · exact f.given p hp o ho
      · rw [List.mem_singleton.1 hp] at ho; cases ho
  | change i op o =>
    have hg := hc i op o rfl
    apply weak
    simp only [Purse.step, Ledger.step]
    cases hi : h.vars[i]? with
    | none =>
      have := List.getElem?_eq_none_iff.1 hi
      rw [modify_none s.vars i _ (by rw [← f.vars.len]; exact this)]
      exact f
    | some r =>
      refine ⟨vars_change f.vars hi (fun c => op.apply c o) _ _, ?_, ?_, f.given⟩
      · show s.txs = _
        rw [f.txs]
        refine (txs_same fun p hp o ho => cellAt_other ?_ _).symm
        intro e
        exact hg (f.given p hp o ho i (e ▸ hi))
      · intro p hp o ho
        simpa using f.refs p hp o ho
  | output j i c =>
    simp only [Purse.step, Ledger.step]
    cases hi : h.vars[i]? with
    | none =>
      rw [vars_none f.vars hi]
      cases h.txs[j]? <;> exact fits_mono f fun _ => .inl
    | some r =>
      rw [(f.vars.get i r hi).2]
      cases hj : h.txs[j]? with
      | none => simp only []; rw [txs_none f hj]; exact weak f
      | some p =>
        refine fits_output f hj (f.vars.get i r hi).1 c _ (fun _ => .inl) fun i' hi' => .inr ⟨j, c, ?_⟩
        rw [f.vars.inj i i' r hi hi']
  | outputOf j v c =>
    apply weak
    simp only [Purse.step, Ledger.step]
    have key : ∀ (x : Currency) (p : PayObj), h.txs[j]? = some p →
        Fits g { h with cells := h.cells ++ [x], txs := h.txs.set j { p with outs := p.outs ++ [⟨h.cells.length, c, ⟨[]⟩⟩] } }
          { s with txs := s.txs.modify j fun p => (p.1 ++ [⟨x, c, ⟨[]⟩⟩], p.2) } := by
      intro x p hp
      have := fits_output (fits_grow f x) (r := h.cells.length) hp (by simp) c g (fun _ => id) (fun i hi => by
        have := (f.vars.get i _ hi).1; omega)
      rw [cellAt_new] at this
      exact this
    cases hj : h.txs[j]? with
    | none => cases v <;> cases Currency.set _ <;> simp only [] <;> first | exact f | (rw [txs_none f hj]; exact f)
    | some p => cases v <;> cases Currency.set _ <;> first | exact f | exact key _ p hj
  | fee j i =>
    apply weak
    simp only [Purse.step, Ledger.step]
    cases hi : h.vars[i]? with
    | none =>
      rw [vars_none f.vars hi]
      cases h.txs[j]? <;> exact f
    | some r =>
      rw [(f.vars.get i r hi).2]
      cases hj : h.txs[j]? with
      | none => simp only []; rw [txs_none f hj]; exact f
      | some p =>
        have hp := List.mem_of_getElem? hj
        refine ⟨vars_same f.vars _ _, ?_, ?_, ?_⟩
        · show s.txs.modify j _ = _
          rw [f.txs]
          exact (map_modify (look h.cells) h.txs j _ hj rfl).symm
        · intro q hq o ho
          rcases mem_set_cases hq with hq | rfl
          · exact f.refs q hq o ho
          · exact f.refs p hp o ho
        · intro q hq o ho
          rcases mem_set_cases hq with hq | rfl
          · exact f.given q hq o ho
          · exact f.given p hp o ho
  | outputs dst src =>
    apply weak
    simp only [Purse.step, Ledger.step]
    have hsrc : s.txs[src]? = h.txs[src]?.map (look h.cells) := by rw [f.txs, List.getElem?_map]
    rw [hsrc]
    cases hd : h.txs[dst]? with
    | none =>
      cases h.txs[src]? with
      | none => exact f
      | some q => simp only [Option.map_some]; rw [txs_none f hd]; exact f
    | some p =>
      cases hs : h.txs[src]? with
      | none => exact f
      | some q =>
        have hq := List.mem_of_getElem? hs
        refine ⟨vars_same f.vars _ _, ?_, ?_, ?_⟩
        · show s.txs.modify dst _ = _
          rw [f.txs]
          exact (map_modify (look h.cells) h.txs dst _ hd rfl).symm
        · intro q' hq' o ho
          rcases mem_set_cases hq' with hq' | rfl
          · exact f.refs q' hq' o ho
          · exact f.refs q hq o ho
        · intro q' hq' o ho
          rcases mem_set_cases hq' with hq' | rfl
          · exact f.given q' hq' o ho
          · exact f.given q hq o ho
  | changeOutput j k op o => exact absurd rfl (ha j k op o)

theorem fits_run (l : List Deal) : ∀ {g : Nat → Prop} {h : Purse} {s : Ledger}, Fits g h s → Careful l → (∀ i op o, Deal.change i op o ∈ l → ¬ g i) →
    ∃ g', Fits g' (l.foldl Purse.step h) (l.foldl Ledger.step s) := by
  induction l with
  | nil => intro g h s f _ _; exact ⟨g, f⟩
  | cons a l ih =>
    intro g h s f hl hg
    have ha : ∀ j k op o, a ≠ .changeOutput j k op o := by rintro j k op o rfl; exact hl
    have hl' : Careful l := by
      cases a <;> first | exact hl | exact hl.2 | exact absurd hl id
    have f' := fits_step f a ha (fun i op o e => hg i op o (e ▸ List.mem_cons_self))
    refine ih f' hl' fun i op o hm => ?_
    rintro (h1 | ⟨j, c, rfl⟩)
    · exact hg i op o (List.mem_cons_of_mem _ hm) h1
    · exact hl.1 op o hm

theorem fits_start : Fits (fun _ => False) ⟨[], [], []⟩ ⟨[], []⟩ :=
  ⟨⟨rfl, fun _ _ h => by simp at h, fun _ _ _ h => by simp at h⟩, rfl, fun _ h => (by cases h), fun _ h => (by cases h)⟩

theorem vars_run (l : List Deal) : ∀ {h : Purse} {s : Ledger}, VarsFit h s → FeesFit h s → (∀ j k op o, Deal.changeOutput j k op o ∉ l) →
    VarsFit (l.foldl Purse.step h) (l.foldl Ledger.step s) ∧ FeesFit (l.foldl Purse.step h) (l.foldl Ledger.step s) := by
  induction l with
  | nil => intro h s hv hf _; exact ⟨hv, hf⟩
  | cons a l ih =>
    intro h s hv hf hl
    obtain ⟨h1, h2⟩ := vars_step hv hf a fun j k op o e => hl j k op o (e ▸ List.mem_cons_self)
    exact ih h1 h2 fun j k op o hm => hl j k op o (List.mem_cons_of_mem _ hm)

theorem vars_seen {h : Purse} {s : Ledger} (hv : VarsFit h s) (i : Nat) : h.var i = s.vars[i]? := by
  unfold Purse.var
  cases hi : h.vars[i]? with
  | none => rw [vars_none hv hi]; rfl
  | some r => rw [(hv.get i r hi).2]; rfl

/-! ## The property -/

/-- A payment made of these outputs and fees. -/
def asPayment (p : List CoinOutput × List Currency) : TxV1 := { coinOutputs := p.1, minerFees := p.2 }

/-- C116: a program that does not change outputs in place, nor a variable after it was given to an output, sees what it would see if amounts
were numbers: every payment and every variable is as it is when nothing is shared. -/
theorem C116_amounts_partial (l : List Deal) (hl : Careful l) :
    (∀ j : Nat, (Purse.run l).tx j = (Ledger.run l).txs[j]?.map asPayment) ∧ ∀ i : Nat, (Purse.run l).var i = (Ledger.run l).vars[i]? := by
  obtain ⟨g, f⟩ := fits_run l fits_start hl fun _ _ _ _ => id
  refine ⟨fun j => ?_, vars_seen f.vars⟩
  show Option.map _ _ = Option.map _ (List.foldl _ _ _ : Ledger).txs[j]?
  rw [f.txs, List.getElem?_map, Option.map_map]
  rfl

/-- Miner fees and variables never change by what is done elsewhere: they are what they are when amounts are numbers in every program that does
not change an output's amount in place. -/
theorem C116_fees (l : List Deal) (hl : ∀ j k op o, Deal.changeOutput j k op o ∉ l) :
    (∀ j : Nat, ((Purse.run l).tx j).map (·.minerFees) = (Ledger.run l).txs[j]?.map Prod.snd) ∧
    ∀ i : Nat, (Purse.run l).var i = (Ledger.run l).vars[i]? := by
  obtain ⟨h1, h2⟩ := vars_run l fits_start.vars rfl hl
  refine ⟨fun j => ?_, vars_seen h1⟩
  have h3 : (Purse.run l).txs.map (·.fees) = (Ledger.run l).txs.map Prod.snd := h2
  have h4 := congrArg (·[j]?) h3
  simp only [List.getElem?_map] at h4
  unfold Purse.tx
  rw [Option.map_map, ← h4]
  rfl

/-- What the operators do to amounts: the exact sum, difference and product (in 10^-9 TFT), and nothing when the amount would be negative or the
product has more than nine decimals. -/
theorem C116_operators (a b : Currency) (ha : GoodCurrency a) (hb : GoodCurrency b) :
    (amount a + amount b < 10^28 → amount (InPlace.add.apply a (.cur b)) = amount a + amount b) ∧
    (amount a < 10^28 → amount b ≤ amount a → amount (InPlace.sub.apply a (.cur b)) = amount a - amount b) ∧
    (amount a < amount b → InPlace.sub.apply a (.cur b) = a) ∧
    (a.value.coef * b.value.coef < 10^28 →
      (-9 ≤ a.value.exp + b.value.exp → amount (InPlace.mul.apply a (.cur b)) * 10^9 = amount a * amount b) ∧
      (a.value.exp + b.value.exp < -9 → InPlace.mul.apply a (.cur b) = a)) := by
  obtain ⟨h1, h2, h3⟩ := C15_add_sub_exact_partial a b ha hb
  refine ⟨fun h => ?_, fun h h' => ?_, fun h => ?_, fun h => ⟨fun h' => ?_, fun h' => ?_⟩⟩
  · obtain ⟨c, e, hc⟩ := h1 h
    simp only [InPlace.apply, e]; exact hc
  · obtain ⟨c, e, hc⟩ := h2 h h'
    simp only [InPlace.apply, e]; exact hc
  · simp only [InPlace.apply, h3 h]
  · obtain ⟨c, e, hc⟩ := (C15_mul_exact_partial a b ha hb h).1 h'
    simp only [InPlace.apply, e]; exact hc
  · simp only [InPlace.apply, (C15_mul_exact_partial a b ha hb h).2 h']

example : amount (InPlace.sub.apply ⟨some ⟨false, 25, -1⟩⟩ (.cur ⟨some ⟨false, 1, -9⟩⟩)) = 2499999999 := by decide

/-- Ten tokens are paid to an address, and the fee is one; then the program goes on counting with other amounts. -/
def dealing : List Deal :=
  [.amount ⟨some ⟨false, 10, 0⟩⟩, .amount ⟨some ⟨false, 1, 0⟩⟩, .payment, .output 0 0 .nil, .fee 0 1, .change 1 .add (.int 5), .outputOf 0 (.int 3) .nil,
   .payment, .outputs 1 0]

example : Careful dealing := ⟨by intro op o h; simp at h, trivial⟩
example : (Purse.run dealing).tx 0 =
    some { coinOutputs := [⟨⟨some ⟨false, 10, 0⟩⟩, .nil, ⟨[]⟩⟩, ⟨⟨some ⟨false, 3, 0⟩⟩, .nil, ⟨[]⟩⟩], minerFees := [⟨some ⟨false, 1, 0⟩⟩] } := by rfl
example : (Purse.run dealing).var 1 = some ⟨some ⟨false, 6, 0⟩⟩ := by rfl
example : ∀ j k op o, Deal.changeOutput j k op o ∉ dealing := by intro j k op o h; simp [dealing] at h

/-- Ten tokens are put into an output, the same amount is the fee, and then five are added to the variable. -/
def counting : List Deal := [.amount ⟨some ⟨false, 10, 0⟩⟩, .payment, .output 0 0 .nil, .fee 0 0, .change 0 .add (.int 5)]

/-- C116 does not hold in full: `x += 5` after `tx.coin_output_add(x, …)` changes the output (it pays 15 instead of 10), while the miner fee stays 10;
and adding to the amount of an output of one payment changes the variable, and the output of another payment that was made from it. -/
theorem C116_inplace_false :
    (Purse.run counting).tx 0 ≠ (Ledger.run counting).txs[0]?.map asPayment ∧
    (Purse.run counting).tx 0 = some { coinOutputs := [⟨⟨some ⟨false, 15, 0⟩⟩, .nil, ⟨[]⟩⟩], minerFees := [⟨some ⟨false, 10, 0⟩⟩] } ∧
    (let l := [Deal.amount ⟨some ⟨false, 10, 0⟩⟩, .payment, .output 0 0 .nil, .payment, .outputs 1 0, .changeOutput 1 0 .sub (.int 4)]
     ((Purse.run l).tx 0).map (fun t => t.coinOutputs.map (·.value)) = some [⟨some ⟨false, 6, 0⟩⟩] ∧ (Purse.run l).var 0 = some ⟨some ⟨false, 6, 0⟩⟩) := by
  refine ⟨by decide, by decide, by decide, by decide⟩

end TF.Props
