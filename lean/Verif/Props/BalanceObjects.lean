import Verif.Spec.BalanceObjects
import Verif.Props.Fund
import Verif.Props.Client
import Verif.Props.Report
/-! # C119 — changing one balance leaves the others alone -/
namespace TF.Props
open TF TF.Spec

/-- What holds of the objects of every program: each balance has an identifier of its own, and wallets are multi-signature balances filed
under their addresses. -/
structure BInv (H : Bytes → Bytes) (h : BalHeap) : Prop where
  idLt : ∀ (i : Nat) (o : BalObj), h.bals[i]? = some o → o.idRef < h.ids.length
  idInj : ∀ (i j : Nat) (o p : BalObj), h.bals[i]? = some o → h.bals[j]? = some p → o.idRef = p.idRef → i = j
  filed : ∀ (i : Nat) (o : BalObj) refs, h.bals[i]? = some o → o.kind = .wallets refs → ∀ p ∈ refs, ∃ (q : BalObj) (owners : List UnlockHash) (n : Int), h.bals[p.2]? = some q ∧ q.kind = .multi owners n ∧
    (⟨owners, n, {}⟩ : MultiBalance).address H = .ok p.1
  once : ∀ (i : Nat) (o : BalObj) refs, h.bals[i]? = some o → o.kind = .wallets refs → (refs.map (·.1)).Nodup

/-! ## The stores -/

theorem put_get {h : BalHeap} {j : Nat} {b : Balance} (i : Nat) :
    (h.put j b).bals[i]? = if i = j then h.bals[i]?.map (fun o => { o with own := b }) else h.bals[i]? := by
  unfold BalHeap.put
  cases hj : h.bals[j]? with
  | none => by_cases e : i = j <;> simp [e, hj]
  | some o =>
    by_cases e : i = j
    · subst e
      have := (List.getElem?_eq_some_iff.mp hj).1
      show (h.bals.set i _)[i]? = _
      rw [List.getElem?_set_self this, hj]; simp
    · simp [e, List.getElem?_set, Ne.symm e]

theorem putRefs_get {h : BalHeap} {j : Nat} {refs : List (Str × Nat)} (i : Nat) :
    (h.putRefs j refs).bals[i]? = if i = j then h.bals[i]?.map (fun o => { o with kind := .wallets refs }) else h.bals[i]? := by
  unfold BalHeap.putRefs
  cases hj : h.bals[j]? with
  | none => by_cases e : i = j <;> simp [e, hj]
  | some o =>
    by_cases e : i = j
    · subst e
      have := (List.getElem?_eq_some_iff.mp hj).1
      show (h.bals.set i _)[i]? = _
      rw [List.getElem?_set_self this, hj]; simp
    · simp [e, List.getElem?_set, Ne.symm e]

theorem newId_get {h : BalHeap} {j : Nat} (i : Nat) :
    (h.newId j).bals[i]? = if i = j then h.bals[i]?.map (fun o => { o with idRef := h.ids.length }) else h.bals[i]? := by
  unfold BalHeap.newId
  cases hj : h.bals[j]? with
  | none => by_cases e : i = j <;> simp [e, hj]
  | some o =>
    by_cases e : i = j
    · subst e
      have := (List.getElem?_eq_some_iff.mp hj).1
      show (h.bals.set i _)[i]? = _
      rw [List.getElem?_set_self this, hj]; simp
    · simp [e, List.getElem?_set, Ne.symm e]

theorem put_ids {h : BalHeap} {j : Nat} {b : Balance} : (h.put j b).ids = h.ids := by unfold BalHeap.put; split <;> rfl
theorem putRefs_ids {h : BalHeap} {j : Nat} {refs : List (Str × Nat)} : (h.putRefs j refs).ids = h.ids := by unfold BalHeap.putRefs; split <;> rfl
theorem setId_bals {h : BalHeap} {j : Nat} {v : Hash} : (h.setId j v).bals = h.bals := by unfold BalHeap.setId; split <;> rfl

theorem balAlloc_get {h : BalHeap} {k : BalKind} (i : Nat) :
    (h.alloc k).bals[i]? = if i = h.bals.length then some ⟨k, {}, h.ids.length⟩ else h.bals[i]? := by
  show (h.bals ++ [_])[i]? = _
  rw [List.getElem?_append]
  split
  · rename_i hl; rw [if_neg (by omega)]
  · rename_i hl
    by_cases e : i = h.bals.length
    · simp [e]
    · rw [if_neg e, List.getElem?_eq_none (by simp; omega), List.getElem?_eq_none (by omega)]

/-! ## The invariant -/

theorem binv_put {H : Bytes → Bytes} {h : BalHeap} {j : Nat} {b : Balance} (w : BInv H h) : BInv H (h.put j b) := by
  have key : ∀ (i : Nat) (o : BalObj), (h.put j b).bals[i]? = some o → ∃ o', h.bals[i]? = some o' ∧ o.kind = o'.kind ∧ o.idRef = o'.idRef := by
    intro i o ho
    rw [put_get] at ho
    split at ho
    · obtain ⟨o', h1, rfl⟩ := Option.map_eq_some_iff.mp ho
      exact ⟨o', h1, rfl, rfl⟩
    · exact ⟨o, ho, rfl, rfl⟩
  have back : ∀ (i : Nat) (o : BalObj), h.bals[i]? = some o → ∃ o', (h.put j b).bals[i]? = some o' ∧ o'.kind = o.kind := by
    intro i o ho
    rw [put_get]
    split
    · rw [ho]; exact ⟨_, rfl, rfl⟩
    · exact ⟨o, ho, rfl⟩
  constructor
  · intro i o ho
    obtain ⟨o', h1, -, h3⟩ := key i o ho
    rw [put_ids, h3]; exact w.idLt i o' h1
  · intro i k o p ho hp e
    obtain ⟨o', h1, -, h3⟩ := key i o ho
    obtain ⟨p', h4, -, h5⟩ := key k p hp
    exact w.idInj i k o' p' h1 h4 (h3 ▸ h5 ▸ e)
  · intro i o refs ho hk p hp
    obtain ⟨o', h1, h2, -⟩ := key i o ho
    obtain ⟨q, owners, n, hq, hm, ha⟩ := w.filed i o' refs h1 (h2 ▸ hk) p hp
    obtain ⟨q', h6, h7⟩ := back _ _ hq
    exact ⟨q', owners, n, h6, h7.trans hm, ha⟩
  · intro i o refs ho hk
    obtain ⟨o', h1, h2, -⟩ := key i o ho
    exact w.once i o' refs h1 (h2 ▸ hk)

theorem binv_setId {H : Bytes → Bytes} {h : BalHeap} {j : Nat} {v : Hash} (w : BInv H h) : BInv H (h.setId j v) := by
  have hl : (h.setId j v).ids.length = h.ids.length := by unfold BalHeap.setId; split <;> simp
  exact ⟨fun i o ho => by rw [setId_bals] at ho; rw [hl]; exact w.idLt i o ho, by rw [setId_bals]; exact w.idInj,
    by rw [setId_bals]; exact w.filed, by rw [setId_bals]; exact w.once⟩

theorem newId_length {h : BalHeap} {j : Nat} : h.ids.length ≤ (h.newId j).ids.length ∧ (∀ o : BalObj, h.bals[j]? = some o → (h.newId j).ids.length = h.ids.length + 1) := by
  unfold BalHeap.newId
  cases hj : h.bals[j]? with
  | none => exact ⟨Nat.le_refl _, by simp⟩
  | some o => simp

theorem binv_newId {H : Bytes → Bytes} {h : BalHeap} {j : Nat} (w : BInv H h) : BInv H (h.newId j) := by
  have key : ∀ (i : Nat) (o : BalObj), (h.newId j).bals[i]? = some o → ∃ o', h.bals[i]? = some o' ∧ o.kind = o'.kind ∧
      ((i ≠ j ∧ o.idRef = o'.idRef) ∨ (i = j ∧ o.idRef = h.ids.length)) := by
    intro i o ho
    rw [newId_get] at ho
    split at ho
    · rename_i e
      obtain ⟨o', h1, rfl⟩ := Option.map_eq_some_iff.mp ho
      exact ⟨o', h1, rfl, .inr ⟨e, rfl⟩⟩
    · rename_i e
      exact ⟨o, ho, rfl, .inl ⟨e, rfl⟩⟩
  have back : ∀ (i : Nat) (o : BalObj), h.bals[i]? = some o → ∃ o', (h.newId j).bals[i]? = some o' ∧ o'.kind = o.kind := by
    intro i o ho
    rw [newId_get]
    split
    · rw [ho]; exact ⟨_, rfl, rfl⟩
    · exact ⟨o, ho, rfl⟩
  constructor
  · intro i o ho
    obtain ⟨o', h1, -, h3⟩ := key i o ho
    have := w.idLt i o' h1
    have hl := newId_length (h := h) (j := j)
    rcases h3 with ⟨-, h3⟩ | ⟨e, h3⟩
    · omega
    · subst e; have := hl.2 _ h1; omega
  · intro i k o p ho hp e
    obtain ⟨o', h1, -, h3⟩ := key i o ho
    obtain ⟨p', h4, -, h5⟩ := key k p hp
    have := w.idLt i o' h1
    have := w.idLt k p' h4
    rcases h3 with ⟨n1, h3⟩ | ⟨e1, h3⟩ <;> rcases h5 with ⟨n2, h5⟩ | ⟨e2, h5⟩
    · exact w.idInj i k o' p' h1 h4 (h3 ▸ h5 ▸ e)
    · omega
    · omega
    · omega
  · intro i o refs ho hk p hp
    obtain ⟨o', h1, h2, -⟩ := key i o ho
    obtain ⟨q, owners, n, hq, hm, ha⟩ := w.filed i o' refs h1 (h2 ▸ hk) p hp
    obtain ⟨q', h6, h7⟩ := back _ _ hq
    exact ⟨q', owners, n, h6, h7.trans hm, ha⟩
  · intro i o refs ho hk
    obtain ⟨o', h1, h2, -⟩ := key i o ho
    exact w.once i o' refs h1 (h2 ▸ hk)

theorem binv_putId {H : Bytes → Bytes} {h : BalHeap} {j : Nat} {v : Hash} (w : BInv H h) : BInv H (h.putId j v) := by
  unfold BalHeap.putId
  split
  · exact binv_newId w
  · exact binv_setId w

theorem alloc_old {h : BalHeap} {k : BalKind} {i : Nat} {o : BalObj} (ho : h.bals[i]? = some o) : (h.alloc k).bals[i]? = some o := by
  have := (List.getElem?_eq_some_iff.mp ho).1
  rw [balAlloc_get, if_neg (by omega)]; exact ho

theorem binv_alloc {H : Bytes → Bytes} {h : BalHeap} {k : BalKind} (w : BInv H h) (hk : ∀ refs, k = .wallets refs → refs = []) : BInv H (h.alloc k) := by
  have hl : (h.alloc k).ids.length = h.ids.length + 1 := by show (h.ids ++ [_]).length = _; simp
  constructor
  · intro i o ho
    rw [balAlloc_get] at ho
    split at ho
    · cases ho; rw [hl]; exact Nat.lt_succ_self _
    · have := w.idLt i o ho; omega
  · intro i j o p ho hp e
    rw [balAlloc_get] at ho hp
    split at ho <;> split at hp
    · omega
    · cases ho; have := w.idLt j p hp; simp only at e; omega
    · cases hp; have := w.idLt i o ho; simp only at e; omega
    · exact w.idInj i j o p ho hp e
  · intro i o refs ho he p hp
    rw [balAlloc_get] at ho
    split at ho
    · cases ho; rw [hk refs he] at hp; cases hp
    · obtain ⟨q, owners, n, hq, h⟩ := w.filed i o refs ho he p hp
      exact ⟨q, owners, n, alloc_old hq, h⟩
  · intro i o refs ho he
    rw [balAlloc_get] at ho
    split at ho
    · cases ho; rw [hk refs he]; exact List.nodup_nil
    · exact w.once i o refs ho he

theorem binv_putRefs {H : Bytes → Bytes} {h : BalHeap} {j : Nat} {old refs : List (Str × Nat)} {s : BalObj} (w : BInv H h)
    (hs : h.bals[j]? = some s) (hk : s.kind = .wallets old)
    (hf : ∀ p ∈ refs, ∃ (q : BalObj) (owners : List UnlockHash) (n : Int), h.bals[p.2]? = some q ∧ q.kind = .multi owners n ∧
      (⟨owners, n, {}⟩ : MultiBalance).address H = .ok p.1) (hn : (refs.map (·.1)).Nodup) : BInv H (h.putRefs j refs) := by
  have key : ∀ (i : Nat) (o : BalObj), (h.putRefs j refs).bals[i]? = some o → ∃ o', h.bals[i]? = some o' ∧ (i ≠ j → o.kind = o'.kind) ∧ (i = j → o.kind = .wallets refs) ∧ o.idRef = o'.idRef := by
    intro i o ho
    rw [putRefs_get] at ho
    split at ho
    · rename_i e
      obtain ⟨o', h1, rfl⟩ := Option.map_eq_some_iff.mp ho
      exact ⟨o', h1, fun ne => absurd e ne, fun _ => rfl, rfl⟩
    · rename_i e
      exact ⟨o, ho, fun _ => rfl, fun e' => absurd e' e, rfl⟩
  have back : ∀ (i : Nat) (o : BalObj), h.bals[i]? = some o → ∀ owners n, o.kind = .multi owners n → (h.putRefs j refs).bals[i]? = some o := by
    intro i o ho owners n hm
    rw [putRefs_get, if_neg]
    · exact ho
    · rintro rfl; rw [hs] at ho; cases ho; rw [hk] at hm; cases hm
  have hold : ∀ p, (∃ (q : BalObj) (owners : List UnlockHash) (n : Int), h.bals[(p : Str × Nat).2]? = some q ∧ q.kind = .multi owners n ∧
      (⟨owners, n, {}⟩ : MultiBalance).address H = .ok p.1) → ∃ (q : BalObj) (owners : List UnlockHash) (n : Int),
      (h.putRefs j refs).bals[p.2]? = some q ∧ q.kind = .multi owners n ∧ (⟨owners, n, {}⟩ : MultiBalance).address H = .ok p.1 := by
    rintro p ⟨q, owners, n, h1, h2, h3⟩
    exact ⟨q, owners, n, back _ _ h1 _ _ h2, h2, h3⟩
  constructor
  · intro i o ho
    obtain ⟨o', h1, -, -, h3⟩ := key i o ho
    rw [putRefs_ids, h3]; exact w.idLt i o' h1
  · intro i k o p ho hp e
    obtain ⟨o', h1, -, -, h3⟩ := key i o ho
    obtain ⟨p', h4, -, -, h5⟩ := key k p hp
    exact w.idInj i k o' p' h1 h4 (h3 ▸ h5 ▸ e)
  · intro i o refs' ho hk' p hp
    obtain ⟨o', h1, h2, h3, -⟩ := key i o ho
    by_cases e : i = j
    · rw [h3 e] at hk'; cases hk'; exact hold p (hf p hp)
    · exact hold p (w.filed i o' refs' h1 (h2 e ▸ hk') p hp)
  · intro i o refs' ho hk'
    obtain ⟨o', h1, h2, h3, -⟩ := key i o ho
    by_cases e : i = j
    · rw [h3 e] at hk'; cases hk'; exact hn
    · exact w.once i o' refs' h1 (h2 e ▸ hk')

/-! ## What an operation on the object `j` touches -/

/-- Everything but the object `j`, its identifier and new objects is as it was. -/
structure Eff (h h' : BalHeap) (j : Nat) : Prop where
  keep : ∀ (i : Nat) (o : BalObj), h.bals[i]? = some o → i ≠ j → h'.bals[i]? = some o
  ids : ∀ r, r < h.ids.length → handedOut h j ≠ some r → h'.id r = h.id r
  grow : h.ids.length ≤ h'.ids.length
  /-- the identifier of `j` is the one it was or a new one -/
  fresh : ∀ r, handedOut h' j = some r → r < h.ids.length → handedOut h j = some r

theorem Eff.refl (h : BalHeap) (j : Nat) : Eff h h j := ⟨fun _ _ h _ => h, fun _ _ _ => rfl, Nat.le_refl _, fun _ h _ => h⟩

theorem Eff.trans {a b c : BalHeap} {j : Nat} (h1 : Eff a b j) (h2 : Eff b c j) : Eff a c j := by
  have hg := h1.grow
  refine ⟨fun i o ho ne => h2.keep i o (h1.keep i o ho ne) ne, fun r hr hn => ?_, Nat.le_trans h1.grow h2.grow, fun r hr hl => ?_⟩
  · rw [h2.ids r (by omega) (fun hh => hn (h1.fresh r hh hr)), h1.ids r hr hn]
  · exact h1.fresh r (h2.fresh r hr (by omega)) hl

theorem eff_put {h : BalHeap} {j : Nat} {b : Balance} : Eff h (h.put j b) j := by
  refine ⟨fun i o ho ne => by rw [put_get, if_neg ne]; exact ho, fun r _ _ => by unfold BalHeap.id; rw [put_ids], by rw [put_ids]; exact Nat.le_refl _, ?_⟩
  intro r hr _
  unfold handedOut at hr ⊢
  rw [put_get, if_pos rfl] at hr
  cases hj : h.bals[j]? <;> rw [hj] at hr <;> exact hr

theorem eff_putRefs {h : BalHeap} {j : Nat} {refs : List (Str × Nat)} : Eff h (h.putRefs j refs) j := by
  refine ⟨fun i o ho ne => by rw [putRefs_get, if_neg ne]; exact ho, fun r _ _ => by unfold BalHeap.id; rw [putRefs_ids], by rw [putRefs_ids]; exact Nat.le_refl _, ?_⟩
  intro r hr _
  unfold handedOut at hr ⊢
  rw [putRefs_get, if_pos rfl] at hr
  cases hj : h.bals[j]? <;> rw [hj] at hr <;> exact hr

theorem eff_setId {h : BalHeap} {j : Nat} {v : Hash} : Eff h (h.setId j v) j := by
  refine ⟨fun i o ho _ => by rw [setId_bals]; exact ho, fun r _ hn => ?_, ?_, fun r hr _ => by unfold handedOut at hr ⊢; rw [setId_bals] at hr; exact hr⟩
  · unfold BalHeap.setId
    cases hj : h.bals[j]? with
    | none => rfl
    | some o =>
      have : o.idRef ≠ r := fun e => hn (by unfold handedOut; rw [hj, ← e]; rfl)
      show (h.ids.set o.idRef v).getD r _ = h.ids.getD r _
      simp [List.getD, List.getElem?_set, this]
  · unfold BalHeap.setId; split <;> simp

theorem eff_newId {h : BalHeap} {j : Nat} : Eff h (h.newId j) j := by
  refine ⟨fun i o ho ne => by rw [newId_get, if_neg ne]; exact ho, fun r hr _ => ?_, newId_length.1, fun r hr hl => ?_⟩
  · unfold BalHeap.newId
    cases hj : h.bals[j]? with
    | none => rfl
    | some o =>
      show (h.ids ++ [_]).getD r _ = h.ids.getD r _
      simp [List.getD, List.getElem?_append, hr]
  · unfold handedOut at hr ⊢
    rw [newId_get, if_pos rfl] at hr
    cases hj : h.bals[j]? <;> rw [hj] at hr
    · cases hr
    · cases hr; exact absurd hl (Nat.lt_irrefl _)

theorem eff_putId {h : BalHeap} {j : Nat} {v : Hash} : Eff h (h.putId j v) j := by
  unfold BalHeap.putId; split
  · exact eff_newId
  · exact eff_setId

/-- A new object touches none. -/
theorem eff_alloc {h : BalHeap} {k : BalKind} (j : Nat) (hj : j < h.bals.length ∨ j = h.bals.length) : Eff h (h.alloc k) j := by
  refine ⟨fun i o ho _ => alloc_old ho, fun r hr _ => ?_, ?_, fun r hr hl => ?_⟩
  · show (h.ids ++ [_]).getD r _ = h.ids.getD r _
    simp [List.getD, List.getElem?_append, hr]
  · show _ ≤ (h.ids ++ [_]).length; simp
  · unfold handedOut at hr ⊢
    rw [balAlloc_get] at hr
    split at hr
    · cases hr; exact absurd hl (Nat.lt_irrefl _)
    · exact hr

/-- The identifier of another object is not that of `j`. -/
theorem other_id {H : Bytes → Bytes} {h : BalHeap} (w : BInv H h) {i j : Nat} {o : BalObj} (ho : h.bals[i]? = some o) (ne : i ≠ j) :
    handedOut h j ≠ some o.idRef := by
  intro e
  obtain ⟨p, hp, he⟩ := Option.map_eq_some_iff.mp e
  exact ne (w.idInj i j o p ho hp he.symm)

theorem Eff.load {H : Bytes → Bytes} {h h' : BalHeap} {j : Nat} (e : Eff h h' j) (w : BInv H h) {i : Nat} {o : BalObj} (ho : h.bals[i]? = some o)
    (ne : i ≠ j) : h'.load o = h.load o := by
  unfold BalHeap.load
  rw [e.ids _ (w.idLt i o ho) (other_id w ho ne)]

theorem Eff.multiAt {H : Bytes → Bytes} {h h' : BalHeap} {j : Nat} (e : Eff h h' j) (w : BInv H h) {i : Nat} {o : BalObj} (ho : h.bals[i]? = some o)
    (ne : i ≠ j) : h'.multiAt i = h.multiAt i := by
  have h1 := e.keep i o ho ne
  have h2 := e.load w ho ne
  unfold BalHeap.multiAt
  rw [ho, h1]
  obtain ⟨k, own, ref⟩ := o
  cases k with
  | multi owners n => simp only; rw [h2]
  | wallet => rfl
  | wallets refs => rfl

/-- The wallets of an object look the same when none of them is the one changed. -/
theorem Eff.wallets {H : Bytes → Bytes} {h h' : BalHeap} {j : Nat} (e : Eff h h' j) (w : BInv H h) {refs : List (Str × Nat)}
    (hr : ∀ p ∈ refs, p.2 ≠ j ∧ ∃ o : BalObj, h.bals[p.2]? = some o) :
    (refs.map fun p => (p.1, h'.multiAt p.2)) = refs.map fun p => (p.1, h.multiAt p.2) := by
  refine List.map_congr_left fun p hp => ?_
  obtain ⟨ne, o, ho⟩ := hr p hp
  rw [e.multiAt w ho ne]

theorem Eff.view {H : Bytes → Bytes} {h h' : BalHeap} {j : Nat} (e : Eff h h' j) (w : BInv H h) {i : Nat} {o : BalObj} (ho : h.bals[i]? = some o)
    (ne : i ≠ j) (hw : j ∉ walletsOf h i) : h'.view o = h.view o := by
  unfold BalHeap.view
  rw [e.load w ho ne]
  obtain ⟨k, own, ref⟩ := o
  cases k with
  | multi owners n => rfl
  | wallet => rfl
  | wallets refs =>
    simp only
    rw [e.wallets w]
    intro p hp
    refine ⟨fun h' => hw ?_, ?_⟩
    · unfold walletsOf; rw [ho]; exact List.mem_map.mpr ⟨p, hp, h'⟩
    · obtain ⟨q, _, _, hq, _⟩ := w.filed i _ refs ho rfl p hp; exact ⟨q, hq⟩

theorem Eff.bal {H : Bytes → Bytes} {h h' : BalHeap} {j : Nat} (e : Eff h h' j) (w : BInv H h) {i : Nat} {o : BalObj} (ho : h.bals[i]? = some o)
    (ne : i ≠ j) (hw : j ∉ walletsOf h i) : h'.bal i = h.bal i := by
  unfold BalHeap.bal
  rw [ho, e.keep i o ho ne]
  exact congrArg some (e.view w ho ne hw)

/-! ## Merging -/

theorem merge_blockid {b o r : Balance} (h : b.merge o = .ok r) : r.blockid = if b.height ≥ o.height then b.blockid else o.blockid := by
  obtain ⟨c, hc, h⟩ := bind_ok h
  cases h
  show c.blockid = _
  unfold Balance.mergeChain at hc
  split at hc
  · rename_i hh; rw [if_pos hh]; split at hc <;> cases hc; rfl
  · rename_i hh; rw [if_neg hh]; split at hc <;> cases hc; rfl

/-- Merging into the object `j` is merging what the two objects show. -/
theorem obj_merge {H : Bytes → Bytes} {h : BalHeap} (w : BInv H h) {j k : Nat} {s o : BalObj} (hs : h.bals[j]? = some s) (ho : h.bals[k]? = some o) :
    (∃ e, (h.load s).merge (h.load o) = .error e ∧ h.merge j o = (h, some e)) ∨
    (∃ b h' s', (h.load s).merge (h.load o) = .ok b ∧ h.merge j o = (h', none) ∧ BInv H h' ∧ Eff h h' j ∧ h'.bals[j]? = some s' ∧ s'.kind = s.kind ∧
      h'.load s' = b) := by
  unfold BalHeap.merge
  rw [hs]
  cases hm : (h.load s).merge (h.load o) with
  | error e => exact .inl ⟨e, rfl, by simp only [hm]⟩
  | ok b =>
    refine .inr ⟨b, (if s.own.height ≥ o.own.height then h else h.putId j (h.id o.idRef)).put j b, ?_⟩
    have hb := merge_blockid hm
    have hb : b.blockid = if s.own.height ≥ o.own.height then h.id s.idRef else h.id o.idRef := hb
    by_cases hh : s.own.height ≥ o.own.height
    · rw [if_pos hh] at hb
      simp only [hh, if_true, hm]
      refine ⟨{ s with own := b }, trivial, trivial, binv_put w, eff_put, by rw [put_get, if_pos rfl, hs]; rfl, rfl, ?_⟩
      unfold BalHeap.load BalHeap.id
      simp only [put_ids]
      change ({ b with blockid := h.id s.idRef } : Balance) = b
      rw [← hb]
    · rw [if_neg hh] at hb
      simp only [hh, if_false, hm]
      have hw := binv_putId (H := H) (j := j) (v := h.id o.idRef) w
      obtain ⟨s', h1, h2, h3⟩ : ∃ s', (h.putId j (h.id o.idRef)).bals[j]? = some s' ∧ s'.kind = s.kind ∧ (h.putId j (h.id o.idRef)).id s'.idRef = h.id o.idRef := by
        unfold BalHeap.putId
        split
        · rename_i hv
          refine ⟨{ s with idRef := h.ids.length }, by rw [newId_get, if_pos rfl, hs]; rfl, rfl, ?_⟩
          have : (h.newId j).ids = h.ids ++ [⟨[]⟩] := by unfold BalHeap.newId; rw [hs]
          unfold BalHeap.id at hv ⊢
          rw [this]
          simp only [List.getD_eq_getElem?_getD, List.getElem?_concat_length, Option.getD_some] at hv ⊢
          cases hx : h.ids[o.idRef]?.getD ⟨[]⟩ with
          | mk v => rw [hx] at hv; simp only at hv; rw [hv]
        · refine ⟨s, by rw [setId_bals]; exact hs, rfl, ?_⟩
          have : (h.setId j (h.id o.idRef)).ids = h.ids.set s.idRef (h.id o.idRef) := by unfold BalHeap.setId; rw [hs]
          have hl := w.idLt j s hs
          show (h.setId j (h.id o.idRef)).ids.getD s.idRef _ = _
          rw [this]
          simp [List.getD_eq_getElem?_getD, hl]
      refine ⟨{ s' with own := b }, trivial, trivial, binv_put hw, eff_putId.trans eff_put, by rw [put_get, if_pos rfl, h1]; rfl, h2, ?_⟩
      unfold BalHeap.load
      have : (((h.putId j (h.id o.idRef)).put j b).id s'.idRef) = (h.putId j (h.id o.idRef)).id s'.idRef := by
        show ((h.putId j (h.id o.idRef)).put j b).ids.getD _ _ = _
        rw [put_ids]; rfl
      simp only [this, h3]
      change ({ b with blockid := h.id o.idRef } : Balance) = b
      rw [← hb]

/-- The wallets of an object as it shows them. -/
def shownRefs (h : BalHeap) (refs : List (Str × Nat)) : MultiMap := refs.map fun p => (p.1, h.multiAt p.2)

theorem shown_none {h : BalHeap} {refs : List (Str × Nat)} {a : Str} : MultiMap.get? (shownRefs h refs) a = none ↔ (refs.any fun p => p.1 = a) = false := by
  unfold MultiMap.get? shownRefs
  rw [Option.map_eq_none_iff, List.find?_eq_none, List.any_eq_false]
  constructor
  · intro h1 p hp
    exact h1 (p.1, h.multiAt p.2) (List.mem_map.mpr ⟨p, hp, rfl⟩)
  · intro h1 q hq
    obtain ⟨p, hp, rfl⟩ := List.mem_map.mp hq
    exact h1 p hp

theorem shown_any {h : BalHeap} {refs : List (Str × Nat)} {a : Str} : ((shownRefs h refs).any fun p => p.1 = a) = refs.any fun p => p.1 = a := by
  unfold shownRefs
  rw [List.any_map]; rfl

/-- A filed wallet: a multi-signature balance and its address. -/
def Filed (H : Bytes → Bytes) (h : BalHeap) (p : Str × Nat) : Prop := ∃ (q : BalObj) (owners : List UnlockHash) (n : Int), h.bals[p.2]? = some q ∧
  q.kind = .multi owners n ∧ (⟨owners, n, {}⟩ : MultiBalance).address H = .ok p.1

theorem Filed.kept {H : Bytes → Bytes} {h h' : BalHeap} {j : Nat} {p : Str × Nat} (f : Filed H h p) (e : Eff h h' j) {s : BalObj}
    (hs : h.bals[j]? = some s) {refs : List (Str × Nat)} (hk : s.kind = .wallets refs) : Filed H h' p := by
  obtain ⟨q, owners, n, hq, hm, ha⟩ := f
  refine ⟨q, owners, n, e.keep _ _ hq ?_, hm, ha⟩
  rintro rfl
  rw [hs] at hq; cases hq; rw [hk] at hm; cases hm

theorem Filed.ne {H : Bytes → Bytes} {h : BalHeap} {j : Nat} {p : Str × Nat} (f : Filed H h p) {s : BalObj}
    (hs : h.bals[j]? = some s) {refs : List (Str × Nat)} (hk : s.kind = .wallets refs) : p.2 ≠ j ∧ ∃ o : BalObj, h.bals[p.2]? = some o := by
  obtain ⟨q, owners, n, hq, hm, -⟩ := f
  refine ⟨?_, q, hq⟩
  rintro rfl
  rw [hs] at hq; cases hq; rw [hk] at hm; cases hm

/-- Holding wallets is merging them, one after the other, into what the balance shows; also when one of them raises. -/
theorem obj_holdAll {H : Bytes → Bytes} (l : List (Str × Nat)) {h : BalHeap} (w : BInv H h) {j : Nat} {s : BalObj} {refs : List (Str × Nat)}
    (hs : h.bals[j]? = some s) (hk : s.kind = .wallets refs) (hl : ∀ p ∈ l, Filed H h p) :
    BInv H (h.holdAll j l).1 ∧ Eff h (h.holdAll j l).1 j ∧
    ((∃ e, (shownRefs h l).foldlM (fun w p => w.mergeMulti p.1 p.2) (⟨h.load s, shownRefs h refs⟩ : Wallets) = .error e ∧ (h.holdAll j l).2 = some e) ∨
     (∃ s' refs', (h.holdAll j l).1.bals[j]? = some s' ∧ s'.kind = .wallets refs' ∧ (h.holdAll j l).2 = none ∧
       (shownRefs h l).foldlM (fun w p => w.mergeMulti p.1 p.2) (⟨h.load s, shownRefs h refs⟩ : Wallets) =
         .ok ⟨(h.holdAll j l).1.load s', shownRefs (h.holdAll j l).1 refs'⟩)) := by
  induction l generalizing h s refs with
  | nil => exact ⟨w, .refl h j, .inr ⟨s, refs, hs, hk, rfl, rfl⟩⟩
  | cons p l ih =>
    obtain ⟨a, r⟩ := p
    have hf : Filed H h (a, r) := hl _ (List.mem_cons_self ..)
    show BInv H (BalHeap.holdAll h j ((a, r) :: l)).1 ∧ _
    have hstep : h.hold j a r = if (refs.any fun p => p.1 = a) then (h, some .attributeError) else (h.putRefs j (refs ++ [(a, r)]), none) := by
      unfold BalHeap.hold
      obtain ⟨k, own, id⟩ := s
      cases hk
      rw [hs]
    have hcons : shownRefs h ((a, r) :: l) = (a, h.multiAt r) :: shownRefs h l := rfl
    rw [hcons, List.foldlM_cons]
    cases hany : refs.any fun p => p.1 = a with
    | true =>
      have hall : h.holdAll j ((a, r) :: l) = (h, some .attributeError) := by
        show (match h.hold j a r with | (h, none) => h.holdAll j l | r => r) = _
        rw [hstep, hany]; rfl
      rw [hall]
      refine ⟨w, .refl h j, .inl ⟨.attributeError, ?_, rfl⟩⟩
      have : Wallets.mergeMulti ⟨h.load s, shownRefs h refs⟩ a (h.multiAt r) = .error .attributeError := by
        unfold Wallets.mergeMulti
        cases hg : MultiMap.get? (shownRefs h refs) a with
        | none => rw [shown_none.mp hg] at hany; cases hany
        | some m => simp only [hg]
      show (do let w ← Wallets.mergeMulti ⟨h.load s, shownRefs h refs⟩ a (h.multiAt r); _) = _
      rw [this]; rfl
    | false =>
      have hg : MultiMap.get? (shownRefs h refs) a = none := shown_none.mpr hany
      obtain ⟨h₁, hh₁⟩ : ∃ h₁, h₁ = h.putRefs j (refs ++ [(a, r)]) := ⟨_, rfl⟩
      have hall : h.holdAll j ((a, r) :: l) = h₁.holdAll j l := by
        show (match h.hold j a r with | (h, none) => h.holdAll j l | r => r) = _
        rw [hstep, hany, hh₁]; rfl
      have e₁ : Eff h h₁ j := hh₁ ▸ eff_putRefs
      have w₁ : BInv H h₁ := by
        rw [hh₁]
        refine binv_putRefs w hs hk ?_ ?_
        · intro p hp
          rcases List.mem_append.mp hp with hp | hp
          · exact w.filed j s refs hs hk p hp
          · rw [List.mem_singleton.mp hp]; exact hf
        · rw [List.map_append, List.nodup_append]
          refine ⟨w.once j s refs hs hk, by simp, ?_⟩
          intro x hx y hy
          obtain ⟨q, hq, rfl⟩ := List.mem_map.mp hx
          obtain rfl : y = a := by simpa using hy
          have := (List.any_eq_false.mp hany) q hq
          simpa using this
      have hs₁ : h₁.bals[j]? = some { s with kind := .wallets (refs ++ [(a, r)]) } := by rw [hh₁, putRefs_get, if_pos rfl, hs]; rfl
      have hid : h₁.ids = h.ids := by rw [hh₁, putRefs_ids]
      have hload : h₁.load { s with kind := .wallets (refs ++ [(a, r)]) } = h.load s := by
        unfold BalHeap.load BalHeap.id; rw [hid]
      have hne : ∀ p, Filed H h p → p.2 ≠ j ∧ ∃ o : BalObj, h.bals[p.2]? = some o := fun p f => f.ne hs hk
      have hsl : shownRefs h₁ l = shownRefs h l := e₁.wallets w fun p hp => hne p (hl p (List.mem_cons_of_mem _ hp))
      have hsr : shownRefs h₁ (refs ++ [(a, r)]) = shownRefs h refs ++ [(a, h.multiAt r)] := by
        have := e₁.wallets w (refs := refs ++ [(a, r)]) fun p hp => hne p <| by
          rcases List.mem_append.mp hp with hp | hp
          · exact w.filed j s refs hs hk p hp
          · rw [List.mem_singleton.mp hp]; exact hf
        show List.map _ _ = _
        rw [this]; simp [shownRefs]
      have hm : Wallets.mergeMulti ⟨h.load s, shownRefs h refs⟩ a (h.multiAt r) = .ok ⟨h.load s, shownRefs h refs ++ [(a, h.multiAt r)]⟩ := by
        unfold Wallets.mergeMulti
        simp only [hg]
        unfold MultiMap.put
        rw [shown_any, hany]; rfl
      obtain ⟨i1, i2, i3⟩ := ih w₁ hs₁ rfl fun p hp => (hl p (List.mem_cons_of_mem _ hp)).kept e₁ hs hk
      rw [hall]
      rw [hload, hsl, hsr] at i3
      refine ⟨i1, e₁.trans i2, ?_⟩
      simp only [hm]
      exact i3

/-- What adding to the `WalletsBalance` object `j` comes to. -/
def AddsTo (H : Bytes → Bytes) (h : BalHeap) (j : Nat) (r : BalHeap × Option Err) (v : Res Wallets) : Prop :=
  BInv H r.1 ∧ Eff h r.1 j ∧ ((∃ e, v = .error e ∧ r.2 = some e) ∨
    (∃ s' refs', r.1.bals[j]? = some s' ∧ s'.kind = .wallets refs' ∧ r.2 = none ∧ v = .ok ⟨r.1.load s', shownRefs r.1 refs'⟩))

theorem obj_addTo {H : Bytes → Bytes} {h : BalHeap} (w : BInv H h) {j k : Nat} {s o : BalObj} {refs : List (Str × Nat)} (hs : h.bals[j]? = some s)
    (hk : s.kind = .wallets refs) (ho : h.bals[k]? = some o) :
    AddsTo H h j (h.addTo H j k) (Wallets.add H ⟨h.load s, shownRefs h refs⟩ (h.view o)) := by
  unfold BalHeap.addTo
  rw [ho]
  obtain ⟨kind, own, id⟩ := o
  cases kind with
  | multi owners n =>
    show AddsTo H h j (match (⟨owners, n, {}⟩ : MultiBalance).address H with | .error e => (h, some e) | .ok address => h.hold j address k)
      (do let a ← (⟨owners, n, {}⟩ : MultiBalance).address H
          Wallets.mergeMulti ⟨h.load s, shownRefs h refs⟩ a ⟨owners, n, h.load ⟨.multi owners n, own, id⟩⟩)
    cases ha : (⟨owners, n, {}⟩ : MultiBalance).address H with
    | error e => exact ⟨w, .refl h j, .inl ⟨e, rfl, rfl⟩⟩
    | ok a =>
      have hf : Filed H h (a, k) := ⟨_, owners, n, ho, rfl, ha⟩
      have := obj_holdAll [(a, k)] w hs hk (by simpa using hf)
      have hone : h.holdAll j [(a, k)] = h.hold j a k := by
        show (match h.hold j a k with | (h, none) => h.holdAll j [] | r => r) = _
        obtain ⟨r1, r2⟩ := h.hold j a k
        cases r2 <;> rfl
      have hm : h.multiAt k = ⟨owners, n, h.load ⟨.multi owners n, own, id⟩⟩ := by unfold BalHeap.multiAt; rw [ho]
      have hfold : (shownRefs h [(a, k)]).foldlM (fun w p => w.mergeMulti p.1 p.2) (⟨h.load s, shownRefs h refs⟩ : Wallets) =
          Wallets.mergeMulti ⟨h.load s, shownRefs h refs⟩ a (h.multiAt k) := by
        show List.foldlM _ _ [(a, h.multiAt k)] = _
        simp only [List.foldlM_cons, List.foldlM_nil, bind_pure]
      rw [hone, hfold, hm] at this
      exact this
  | wallet =>
    show AddsTo H h j (h.merge j ⟨.wallet, own, id⟩) (do return { (⟨h.load s, shownRefs h refs⟩ : Wallets) with base := ← (h.load s).merge (h.load ⟨.wallet, own, id⟩) })
    rcases obj_merge w hs ho with ⟨e, h1, h2⟩ | ⟨b, h', s', h1, h2, h3, h4, h5, h6, h7⟩
    · rw [h1, h2]; exact ⟨w, .refl h j, .inl ⟨e, rfl, rfl⟩⟩
    · rw [h1, h2]
      refine ⟨h3, h4, .inr ⟨s', refs, h5, h6.trans hk, rfl, ?_⟩⟩
      have : shownRefs h' refs = shownRefs h refs := h4.wallets w fun p hp => Filed.ne (w.filed j s refs hs hk p hp) hs hk
      rw [h7, this]; rfl
  | wallets refs₂ =>
    show AddsTo H h j (match h.merge j ⟨.wallets refs₂, own, id⟩ with | (h, none) => h.holdAll j refs₂ | r => r)
      (do let w' := { (⟨h.load s, shownRefs h refs⟩ : Wallets) with base := ← (h.load s).merge (h.load ⟨.wallets refs₂, own, id⟩) }
          (shownRefs h refs₂).foldlM (fun w p => w.mergeMulti p.1 p.2) w')
    rcases obj_merge w hs ho with ⟨e, h1, h2⟩ | ⟨b, h', s', h1, h2, h3, h4, h5, h6, h7⟩
    · rw [h1, h2]; exact ⟨w, .refl h j, .inl ⟨e, rfl, rfl⟩⟩
    · rw [h1, h2]
      have hr : shownRefs h' refs = shownRefs h refs := h4.wallets w fun p hp => Filed.ne (w.filed j s refs hs hk p hp) hs hk
      have hr₂ : shownRefs h' refs₂ = shownRefs h refs₂ := h4.wallets w fun p hp => Filed.ne (w.filed k _ refs₂ ho rfl p hp) hs hk
      obtain ⟨i1, i2, i3⟩ := obj_holdAll refs₂ h3 h5 (h6.trans hk) fun p hp => Filed.kept (w.filed k _ refs₂ ho rfl p hp) h4 hs hk
      rw [hr, hr₂, h7] at i3
      exact ⟨i1, h4.trans i2, i3⟩

/-- Two balances put together in a new one. -/
theorem obj_addNew {H : Bytes → Bytes} {h : BalHeap} (w : BInv H h) {a b : Nat} {o p : BalObj} (ho : h.bals[a]? = some o) (hp : h.bals[b]? = some p) :
    ∀ r, r = (match (h.alloc (.wallets [])).addTo H h.bals.length a with
      | (h', none) => h'.addTo H h.bals.length b
      | r => r) →
    AddsTo H h h.bals.length r (do let w ← Wallets.add H {} (h.view o); w.add H (h.view p)) := by
  intro r hr
  obtain ⟨n, hn⟩ : ∃ n, n = h.bals.length := ⟨_, rfl⟩
  rw [← hn] at hr ⊢
  have w0 : BInv H (h.alloc (.wallets [])) := binv_alloc w (by intro refs e; cases e; rfl)
  have e0 : Eff h (h.alloc (.wallets [])) n := eff_alloc n (.inr hn)
  have hs0 : (h.alloc (.wallets [])).bals[n]? = some ⟨.wallets [], {}, h.ids.length⟩ := by rw [balAlloc_get, if_pos hn]
  have ne : ∀ (i : Nat) (q : BalObj), h.bals[i]? = some q → i ≠ n := fun i q hq e => by
    have := (List.getElem?_eq_some_iff.mp hq).1; omega
  have nw : ∀ i, n ∉ walletsOf h i := by
    intro i hi
    unfold walletsOf at hi
    split at hi
    · rename_i refs own id hq
      obtain ⟨x, hx, hxn⟩ := List.mem_map.mp hi
      obtain ⟨q, _, _, hq', _⟩ := w.filed i _ refs hq rfl x hx
      exact ne _ _ hq' hxn
    · cases hi
  have hl0 : (h.alloc (.wallets [])).load ⟨.wallets [], {}, h.ids.length⟩ = {} := by
    unfold BalHeap.load BalHeap.id
    show ({ ({} : Balance) with blockid := (h.ids ++ [(⟨[]⟩ : Hash)]).getD h.ids.length ⟨[]⟩ } : Balance) = {}
    simp [List.getD_eq_getElem?_getD]
  have t1 := obj_addTo w0 hs0 rfl (e0.keep a o ho (ne _ _ ho))
  rw [hl0, e0.view w ho (ne _ _ ho) (nw a)] at t1
  obtain ⟨r1, hr1⟩ : ∃ r1, r1 = (h.alloc (.wallets [])).addTo H n a := ⟨_, rfl⟩
  rw [← hr1] at t1 hr
  obtain ⟨w1, e1, t1⟩ := t1
  obtain ⟨h1, x1⟩ := r1
  have t1' : (∃ e, Wallets.add H {} (h.view o) = .error e ∧ x1 = some e) ∨
    (∃ s' refs', h1.bals[n]? = some s' ∧ s'.kind = .wallets refs' ∧ x1 = none ∧ Wallets.add H {} (h.view o) = .ok ⟨h1.load s', shownRefs h1 refs'⟩) := t1
  rcases t1' with ⟨e, v1, rfl⟩ | ⟨s1, refs1, hs1, hk1, rfl, v1⟩
  · rw [hr, v1]
    show AddsTo H h n (h1, some e) (.error e)
    exact ⟨w1, e0.trans e1, .inl ⟨e, rfl, rfl⟩⟩
  · have e01 := e0.trans e1
    obtain ⟨w2, e2, t2⟩ := obj_addTo w1 hs1 hk1 (e01.keep b p hp (ne _ _ hp))
    rw [e01.view w hp (ne _ _ hp) (nw b)] at t2
    rw [hr, v1]
    show AddsTo H h n (h1.addTo H n b) (Wallets.add H ⟨h1.load s1, shownRefs h1 refs1⟩ (h.view p))
    exact ⟨w2, e01.trans e2, t2⟩

/-- What `balance_add` comes to: the objects stay sound, only the object it is called on is touched (none, when the result is a new one),
and the result shows what adding the values gives. -/
theorem obj_add {H : Bytes → Bytes} {h : BalHeap} (w : BInv H h) {j k : Nat} {s o : BalObj} (hs : h.bals[j]? = some s) (ho : h.bals[k]? = some o) :
    BInv H (h.add H j k).1 ∧ (Eff h (h.add H j k).1 j ∨ Eff h (h.add H j k).1 h.bals.length) ∧
    ((∃ e, AnyBalance.add H (h.view s) (some (h.view o)) = .error e ∧ (h.add H j k).2 = .error e) ∨
     (∃ n z, (n = j ∨ n = h.bals.length) ∧ AnyBalance.add H (h.view s) (some (h.view o)) = .ok z ∧ (h.add H j k).2 = .ok n ∧ (h.add H j k).1.bal n = some z)) := by
  have shown : ∀ {n : Nat} {r : BalHeap × Option Err} {v : Res Wallets}, AddsTo H h n r v → ∀ (q : BalHeap × Res Nat), q = (r.1, match r.2 with | none => .ok n | some e => .error e) →
      BInv H q.1 ∧ Eff h q.1 n ∧ ((∃ e, (do return AnyBalance.wallets (← v) : Res AnyBalance) = .error e ∧ q.2 = .error e) ∨
        (∃ z, (do return AnyBalance.wallets (← v) : Res AnyBalance) = .ok z ∧ q.2 = .ok n ∧ q.1.bal n = some z)) := by
    rintro n r v ⟨h1, h2, h3⟩ q rfl
    refine ⟨h1, h2, ?_⟩
    rcases h3 with ⟨e, rfl, h4⟩ | ⟨s', refs', h4, h5, h6, rfl⟩
    · exact .inl ⟨e, rfl, by rw [h4]⟩
    · refine .inr ⟨_, rfl, by rw [h6], ?_⟩
      unfold BalHeap.bal
      rw [h4]
      obtain ⟨k', own', id'⟩ := s'
      cases h5; rfl
  have fresh : ∀ {a b : Nat} {o p : BalObj}, h.bals[a]? = some o → h.bals[b]? = some p → ∀ (q : BalHeap × Res Nat),
      q = (match (h.alloc (.wallets [])).addTo H h.bals.length a with
        | (h', none) => ((h'.addTo H h.bals.length b).1, match (h'.addTo H h.bals.length b).2 with | none => .ok h.bals.length | some e => .error e)
        | r => (r.1, match r.2 with | none => .ok h.bals.length | some e => .error e)) →
      BInv H q.1 ∧ Eff h q.1 h.bals.length ∧ ((∃ e, (do let w ← Wallets.add H {} (h.view o); return AnyBalance.wallets (← w.add H (h.view p)) : Res AnyBalance) = .error e ∧ q.2 = .error e) ∨
        (∃ z, (do let w ← Wallets.add H {} (h.view o); return AnyBalance.wallets (← w.add H (h.view p)) : Res AnyBalance) = .ok z ∧ q.2 = .ok h.bals.length ∧ q.1.bal h.bals.length = some z)) := by
    intro a b o p ho hp q hq
    have := shown (obj_addNew w ho hp _ rfl) q (by
      rw [hq]
      obtain ⟨h', x⟩ := (h.alloc (.wallets [])).addTo H h.bals.length a
      cases x <;> rfl)
    simpa only [bind_assoc] using this
  have two : h.bals[j]? = some s ∧ h.bals[k]? = some o := ⟨hs, ho⟩
  obtain ⟨kind, own, id⟩ := s
  obtain ⟨kind₂, own₂, id₂⟩ := o
  have lift : ∀ {n : Nat} {q : BalHeap × Res Nat} {v : Res AnyBalance}, (n = j ∨ n = h.bals.length) → h.add H j k = q →
      AnyBalance.add H (h.view ⟨kind, own, id⟩) (some (h.view ⟨kind₂, own₂, id₂⟩)) = v →
      (BInv H q.1 ∧ Eff h q.1 n ∧ ((∃ e, v = .error e ∧ q.2 = .error e) ∨ (∃ z, v = .ok z ∧ q.2 = .ok n ∧ q.1.bal n = some z))) →
      BInv H (h.add H j k).1 ∧ (Eff h (h.add H j k).1 j ∨ Eff h (h.add H j k).1 h.bals.length) ∧
      ((∃ e, AnyBalance.add H (h.view ⟨kind, own, id⟩) (some (h.view ⟨kind₂, own₂, id₂⟩)) = .error e ∧ (h.add H j k).2 = .error e) ∨
       (∃ n z, (n = j ∨ n = h.bals.length) ∧ AnyBalance.add H (h.view ⟨kind, own, id⟩) (some (h.view ⟨kind₂, own₂, id₂⟩)) = .ok z ∧ (h.add H j k).2 = .ok n ∧ (h.add H j k).1.bal n = some z)) := by
    rintro n q v hn h1 h2 ⟨h3, h4, h5⟩
    rw [h1, h2]
    refine ⟨h3, ?_, ?_⟩
    · rcases hn with rfl | rfl
      · exact .inl h4
      · exact .inr h4
    · rcases h5 with h5 | ⟨z, a, b, c⟩
      · exact .inl h5
      · exact .inr ⟨n, z, hn, a, b, c⟩
  cases kind with
  | wallets refs =>
    refine lift (n := j) (.inl rfl) (q := ((h.addTo H j k).1, match (h.addTo H j k).2 with | none => .ok j | some e => .error e)) ?_ rfl
      (shown (obj_addTo w hs rfl ho) _ rfl)
    unfold BalHeap.add; rw [hs, ho]; rfl
  | wallet =>
    cases kind₂ with
    | wallet =>
      refine lift (n := j) (.inl rfl) (q := ((h.merge j ⟨.wallet, own₂, id₂⟩).1, match (h.merge j ⟨.wallet, own₂, id₂⟩).2 with | none => .ok j | some e => .error e)) ?_
        (v := do return .wallet (← (h.load ⟨.wallet, own, id⟩).merge (h.load ⟨.wallet, own₂, id₂⟩))) rfl ?_
      · unfold BalHeap.add; rw [hs, ho]; rfl
      · rcases obj_merge w hs ho with ⟨e, h1, h2⟩ | ⟨b, h', s', h1, h2, h3, h4, h5, h6, h7⟩
        · rw [h1, h2]; exact ⟨w, .refl h j, .inl ⟨e, rfl, rfl⟩⟩
        · rw [h1, h2]
          refine ⟨h3, h4, .inr ⟨_, rfl, rfl, ?_⟩⟩
          unfold BalHeap.bal
          rw [h5]
          obtain ⟨k', own', id'⟩ := s'
          cases h6
          exact congrArg (fun b => some (AnyBalance.wallet b)) h7
    | multi owners n =>
      refine lift (.inr rfl) (q := _) ?_ rfl (fresh hs ho _ rfl)
      unfold BalHeap.add; rw [hs, ho]; rfl
    | wallets refs₂ =>
      refine lift (.inr rfl) (q := _) ?_ rfl (fresh hs ho _ rfl)
      unfold BalHeap.add; rw [hs, ho]; rfl
  | multi owners n =>
    cases kind₂ with
    | multi owners₂ n₂ =>
      have hadd : h.add H j k = (h, match (⟨owners, n, {}⟩ : MultiBalance).address H with | .ok _ => .error .attributeError | .error e => .error e) := by
        unfold BalHeap.add; rw [hs, ho]
        show (match (⟨owners, n, {}⟩ : MultiBalance).address H with | .ok _ => (h, .error .attributeError) | .error e => (h, .error e) : BalHeap × Res Nat) = _
        cases (⟨owners, n, {}⟩ : MultiBalance).address H <;> rfl
      refine lift (n := j) (.inl rfl) hadd (v := do let _ ← (⟨owners, n, {}⟩ : MultiBalance).address H; throw .attributeError) rfl ?_
      refine ⟨w, .refl h j, .inl ?_⟩
      cases (⟨owners, n, {}⟩ : MultiBalance).address H
      · exact ⟨_, rfl, rfl⟩
      · exact ⟨_, rfl, rfl⟩
    | wallet =>
      refine lift (.inr rfl) (q := _) ?_ rfl (fresh hs hs _ rfl)
      unfold BalHeap.add; rw [hs, ho]; rfl
    | wallets refs₂ =>
      refine lift (.inr rfl) (q := _) ?_ rfl (fresh hs hs _ rfl)
      unfold BalHeap.add; rw [hs, ho]; rfl

/-! ## Adding outputs -/

theorem outputAdd_blockid (H : Bytes → Bytes) (b : Balance) (x : Hash) (o : CoinOutput) (c sp : Bool) :
    ({ b with blockid := x } : Balance).outputAdd H o c sp = ({ (b.outputAdd H o c sp).1 with blockid := x }, (b.outputAdd H o c sp).2) := by
  have hr : ({ b with blockid := x } : Balance).record o c sp = { b.record o c sp with blockid := x } := by
    unfold Balance.record
    cases c <;> cases sp <;> simp only [Bool.false_eq_true, if_false, if_true] <;> (repeat' split) <;> first | rfl | simp_all
  unfold Balance.outputAdd
  rw [hr]
  cases o.condition.unlockhash H <;> rfl

theorem outputAdd_own_blockid (H : Bytes → Bytes) (b : Balance) (o : CoinOutput) (c sp : Bool) : (b.outputAdd H o c sp).1.blockid = b.blockid := by
  have := congrArg (fun r => r.1.blockid) (outputAdd_blockid H b b.blockid o c sp)
  exact this

/-- Adding an output to one object. -/
theorem obj_outputTo {H : Bytes → Bytes} {h : BalHeap} (w : BInv H h) {j : Nat} {s : BalObj} (hs : h.bals[j]? = some s) (o : CoinOutput) (c sp : Bool) :
    ∀ r, r = h.outputTo H j o c sp → BInv H r.1 ∧ Eff h r.1 j ∧ r.1.ids = h.ids ∧ r.2 = ((h.load s).outputAdd H o c sp).2 ∧
      ∃ s' : BalObj, r.1.bals[j]? = some s' ∧ s'.kind = s.kind ∧ s'.idRef = s.idRef ∧ r.1.load s' = ((h.load s).outputAdd H o c sp).1 := by
  intro r hr
  have hr : r = (h.put j (s.own.outputAdd H o c sp).1, (s.own.outputAdd H o c sp).2) := by
    rw [hr]; unfold BalHeap.outputTo; rw [hs]
  have hv := outputAdd_blockid H s.own (h.id s.idRef) o c sp
  have hv : (h.load s).outputAdd H o c sp = _ := hv
  rw [hv, hr]
  refine ⟨binv_put w, eff_put, put_ids, rfl, { s with own := (s.own.outputAdd H o c sp).1 }, by rw [put_get, if_pos rfl, hs]; rfl, rfl, rfl, ?_⟩
  unfold BalHeap.load BalHeap.id
  simp only [put_ids]

/-- What a balance shows depends on itself and its wallets only. -/
theorem view_frame {H : Bytes → Bytes} {h h' : BalHeap} (w : BInv H h) {i : Nat} {o : BalObj} (ho : h.bals[i]? = some o)
    (hk : ∀ x, x = i ∨ x ∈ walletsOf h i → ∀ q : BalObj, h.bals[x]? = some q → h'.bals[x]? = some q ∧ h'.id q.idRef = h.id q.idRef) : h'.bal i = h.bal i := by
  have hi := hk i (.inl rfl) o ho
  unfold BalHeap.bal
  rw [ho, hi.1]
  show some (h'.view o) = some (h.view o)
  have hl : h'.load o = h.load o := by unfold BalHeap.load; rw [hi.2]
  unfold BalHeap.view
  rw [hl]
  obtain ⟨k, own, ref⟩ := o
  cases k with
  | multi owners n => rfl
  | wallet => rfl
  | wallets refs =>
    simp only
    congr 3
    refine List.map_congr_left fun p hp => ?_
    obtain ⟨q, owners, n, hq, hm, -⟩ := w.filed i _ refs ho rfl p hp
    have hq' := hk p.2 (.inr (by unfold walletsOf; rw [ho]; exact List.mem_map.mpr ⟨p, hp, rfl⟩)) q hq
    unfold BalHeap.multiAt
    rw [hq, hq'.1]
    obtain ⟨k, own, ref⟩ := q
    cases hm
    simp only
    have : h'.load ⟨.multi owners n, own, ref⟩ = h.load ⟨.multi owners n, own, ref⟩ := by unfold BalHeap.load; rw [hq'.2]
    rw [this]

/-- What `output_add` on the object `j` comes to: the objects stay sound, only the object it is called on and its wallets are touched, no
identifier is, and the balance shows what adding the output to the value gives. -/
structure OutputOk (H : Bytes → Bytes) (h : BalHeap) (j : Nat) (s : BalObj) (r : BalHeap × Option Err) (v : AnyBalance × Option Err) : Prop where
  inv : BInv H r.1
  keep : ∀ (i : Nat) (q : BalObj), h.bals[i]? = some q → i ≠ j → i ∉ walletsOf h j → r.1.bals[i]? = some q
  ids : ∃ l, r.1.ids = h.ids ++ l
  same : handedOut r.1 j = some s.idRef
  shows : r.1.bal j = some v.1
  err : r.2 = v.2

theorem outputOk_plain {H : Bytes → Bytes} {h : BalHeap} (w : BInv H h) {j : Nat} {s : BalObj} (hs : h.bals[j]? = some s) (o : CoinOutput) (c sp : Bool)
    (f : Balance → AnyBalance) (hf : ∀ (h' : BalHeap) (s' : BalObj), s'.kind = s.kind → (∀ p refs, s.kind = .wallets refs → p ∈ refs → h'.multiAt p.2 = h.multiAt p.2) → h'.view s' = f (h'.load s')) :
    OutputOk H h j s (h.outputTo H j o c sp) (f ((h.load s).outputAdd H o c sp).1, ((h.load s).outputAdd H o c sp).2) := by
  obtain ⟨h1, h2, h3, h4, s', h5, h6, h7, h8⟩ := obj_outputTo w hs o c sp _ rfl
  refine ⟨h1, fun i q hq ne _ => h2.keep i q hq ne, ⟨[], by rw [h3]; simp⟩, by unfold handedOut; rw [h5]; exact congrArg some h7, ?_, h4⟩
  unfold BalHeap.bal
  rw [h5]
  show some (BalHeap.view _ s') = some (f _)
  rw [hf _ s' h6, h8]
  intro p refs hk hp
  obtain ⟨hne, q, hq⟩ := Filed.ne (w.filed j s refs hs hk p hp) hs hk
  exact h2.multiAt w hq hne

theorem load_put {h : BalHeap} {j : Nat} {b : Balance} {o : BalObj} : (h.put j b).load o = h.load o := by
  unfold BalHeap.load BalHeap.id; rw [put_ids]

theorem shown_get {h : BalHeap} {refs : List (Str × Nat)} {a : Str} :
    MultiMap.get? (shownRefs h refs) a = ((refs.find? fun p => p.1 = a).map (·.2)).map h.multiAt := by
  unfold MultiMap.get? shownRefs
  rw [List.find?_map, Option.map_map, Option.map_map]
  rfl

theorem inj_of_nodup {α β : Type} {f : α → β} {l : List α} (h : (l.map f).Nodup) {x y : α} (hx : x ∈ l) (hy : y ∈ l) (e : f x = f y) : x = y := by
  induction l with
  | nil => cases hx
  | cons z l ih =>
    rw [List.map_cons, List.nodup_cons] at h
    rcases List.mem_cons.mp hx with ex | hx' <;> rcases List.mem_cons.mp hy with ey | hy'
    · rw [ex, ey]
    · exact absurd (List.mem_map.mpr ⟨y, hy', (ex ▸ e.symm)⟩) h.1
    · exact absurd (List.mem_map.mpr ⟨x, hx', (ey ▸ e)⟩) h.1
    · exact ih h.2 hx' hy'

theorem obj_output {H : Bytes → Bytes} {h : BalHeap} (w : BInv H h) {j : Nat} {s : BalObj} (hs : h.bals[j]? = some s) (o : CoinOutput) (c sp : Bool) :
    OutputOk H h j s (h.outputAdd H j o c sp) (outputAdded H o c sp (h.view s)) := by
  obtain ⟨kind, own, id⟩ := s
  have plain : (∀ refs, kind ≠ .wallets refs) → h.outputAdd H j o c sp = h.outputTo H j o c sp := by
    intro hk
    unfold BalHeap.outputAdd
    rw [hs]
    cases kind with
    | wallets refs => exact absurd rfl (hk refs)
    | wallet => rfl
    | multi owners n => rfl
  cases kind with
  | wallet =>
    rw [plain (by simp)]
    refine outputOk_plain w hs o c sp AnyBalance.wallet fun h' s' hk _ => ?_
    obtain ⟨k', own', id'⟩ := s'
    cases hk; rfl
  | multi owners n =>
    rw [plain (by simp)]
    refine outputOk_plain w hs o c sp (fun b => AnyBalance.multi ⟨owners, n, b⟩) fun h' s' hk _ => ?_
    obtain ⟨k', own', id'⟩ := s'
    cases hk; rfl
  | wallets refs =>
    have hfiled : ∀ p ∈ refs, Filed H h p := w.filed j _ refs hs rfl
    obtain ⟨W, hW⟩ : ∃ W : Wallets, W = ⟨h.load ⟨.wallets refs, own, id⟩, shownRefs h refs⟩ := ⟨_, rfl⟩
    have hview : outputAdded H o c sp (h.view ⟨.wallets refs, own, id⟩) = (.wallets (W.outputAdd H o c sp).1, (W.outputAdd H o c sp).2) := by rw [hW]; rfl
    rw [hview]
    have hself : ∀ e, h.outputAdd H j o c sp = (h, some e) → W.outputAdd H o c sp = (W, some e) →
        OutputOk H h j ⟨.wallets refs, own, id⟩ (h.outputAdd H j o c sp) (.wallets (W.outputAdd H o c sp).1, (W.outputAdd H o c sp).2) := by
      intro e h1 h2
      rw [h1, h2]
      refine ⟨w, fun _ _ hq _ _ => hq, ⟨[], by simp⟩, by unfold handedOut; rw [hs]; rfl, ?_, rfl⟩
      unfold BalHeap.bal; rw [hs, hW]; rfl
    cases hu : o.condition.unlockhash H with
    | error e =>
      refine hself e ?_ ?_
      · unfold BalHeap.outputAdd; rw [hs]; simp only [hu]
      · unfold Wallets.outputAdd; simp only [hu]
    | ok u =>
      by_cases ht : u.type = 3
      · have hM : W.outputAdd H o c sp = W.multiOutputAdd H (u.str H) o c sp := by unfold Wallets.outputAdd; simp only [hu, ht, if_true]
        cases hun : o.condition.unwrap with
        | multiSig os m =>
          cases hfind : (refs.find? fun p => p.1 = u.str H).map (·.2) with
          | some r =>
            have hO : h.outputAdd H j o c sp = h.outputTo H r o c sp := by
              unfold BalHeap.outputAdd; rw [hs]; simp only [hu, ht, if_true, hun, hfind]
            obtain ⟨p, hp, hpr⟩ := Option.map_eq_some_iff.mp hfind
            have hpm : p ∈ refs := List.mem_of_find?_eq_some hp
            have hpa : p.1 = u.str H := by simpa using List.find?_some hp
            obtain ⟨q, owners, n, hq, hm, ha⟩ := hfiled p hpm
            rw [hpr] at hq
            have hrj : r ≠ j := hpr ▸ ((hfiled p hpm).ne hs rfl).1
            obtain ⟨h1, h2, h3, h4, s', h5, h6, h7, h8⟩ := obj_outputTo w hq o c sp _ rfl
            have hmr : h.multiAt r = ⟨owners, n, h.load q⟩ := by
              unfold BalHeap.multiAt; rw [hq]; obtain ⟨k, a, b⟩ := q; cases hm; rfl
            have hget : MultiMap.get? W.wallets (u.str H) = some ⟨owners, n, h.load q⟩ := by
              rw [hW]; show MultiMap.get? (shownRefs h refs) _ = _; rw [shown_get, hfind, ← hmr]; rfl
            have hV : W.multiOutputAdd H (u.str H) o c sp = ({ W with wallets := W.wallets.put (u.str H) ⟨owners, n, ((h.load q).outputAdd H o c sp).1⟩ },
                ((h.load q).outputAdd H o c sp).2) := by
              unfold Wallets.multiOutputAdd Wallets.multiFor
              simp only [hun, hget]
            rw [hM, hV, hO]
            refine ⟨h1, fun i x hx _ hn => h2.keep i x hx ?_, ⟨[], by rw [h3]; simp⟩, ?_, ?_, h4⟩
            · rintro rfl
              apply hn
              unfold walletsOf; rw [hs]; exact List.mem_map.mpr ⟨p, hpm, hpr⟩
            · unfold handedOut; rw [h2.keep j _ hs (Ne.symm hrj)]; rfl
            · unfold BalHeap.bal
              rw [h2.keep j _ hs (Ne.symm hrj)]
              show some (AnyBalance.wallets ⟨BalHeap.load _ _, shownRefs (h.outputTo H r o c sp).1 refs⟩) = _
              rw [h2.load w hs (Ne.symm hrj)]
              have hmap : shownRefs (h.outputTo H r o c sp).1 refs = W.wallets.put (u.str H) ⟨owners, n, ((h.load q).outputAdd H o c sp).1⟩ := by
                rw [hW]
                unfold MultiMap.put
                rw [if_pos (by rw [shown_any]; exact List.any_eq_true.mpr ⟨p, hpm, by simpa using hpa⟩)]
                unfold shownRefs
                rw [List.map_map]
                refine List.map_congr_left fun x hx => ?_
                show (x.1, _) = if x.1 = u.str H then (x.1, _) else (x.1, h.multiAt x.2)
                obtain ⟨y, oy, ny, hy, hym, hya⟩ := hfiled x hx
                by_cases e : x.1 = u.str H
                · have hxp : x = p := by
                    have hnd := w.once j _ refs hs rfl
                    exact inj_of_nodup hnd hx hpm (e.trans hpa.symm)
                  rw [if_pos e, hxp, hpr]
                  have : (h.outputTo H r o c sp).1.multiAt r = ⟨owners, n, (h.outputTo H r o c sp).1.load s'⟩ := by
                    unfold BalHeap.multiAt; rw [h5]; obtain ⟨k, a, b⟩ := s'; cases h6.trans hm; rfl
                  rw [this, h8]
                · rw [if_neg e]
                  have hxr : x.2 ≠ r := by
                    intro e'
                    rw [e', hq] at hy
                    cases hy
                    rw [hm] at hym
                    cases hym
                    rw [ha] at hya
                    exact e ((Except.ok.inj hya).symm.trans hpa)
                  rw [h2.multiAt w hy hxr]
              rw [hmap, hW]
          | none =>
            have hany : (refs.any fun p => p.1 = u.str H) = false := by
              rw [Option.map_eq_none_iff, List.find?_eq_none] at hfind
              rw [List.any_eq_false]; exact hfind
            have hget : MultiMap.get? W.wallets (u.str H) = none := by rw [hW]; exact shown_none.mpr hany
            cases hnew : (do let (owners, n) ← ownersOf o.condition; MultiBalance.new owners n : Res MultiBalance) with
            | error e =>
              refine hself e ?_ ?_
              · unfold BalHeap.outputAdd; rw [hs]; simp only [hu, ht, if_true, hun, hfind, hnew]
              · rw [hM]; unfold Wallets.multiOutputAdd Wallets.multiFor; simp only [hun, hget]; rw [hnew]
            | ok m' =>
              obtain ⟨owners, n, hcond, hm', hadr⟩ : ∃ owners n, o.condition = .multiSig owners n ∧ m' = ⟨owners, n, {}⟩ ∧
                  (⟨owners, n, {}⟩ : MultiBalance).address H = .ok (u.str H) := by
                obtain ⟨⟨owners, n⟩, ho, hn⟩ := bind_ok hnew
                have hc : o.condition = .multiSig owners n := by
                  cases hc : o.condition <;> rw [hc] at ho <;> cases ho
                  rfl
                refine ⟨owners, n, hc, ?_, ?_⟩
                · have hn : MultiBalance.new owners n = .ok m' := hn
                  unfold MultiBalance.new at hn
                  split at hn
                  · cases hn
                  · split at hn <;> cases hn; rfl
                · show (do return (← (Condition.multiSig owners n).unlockhash H).str H) = _
                  rw [← hc, hu]; rfl
              subst hm'
              obtain ⟨h₀, hh₀⟩ : ∃ h₀, h₀ = h.alloc (.multi owners n) := ⟨_, rfl⟩
              obtain ⟨r, hr⟩ : ∃ r, r = h.bals.length := ⟨_, rfl⟩
              obtain ⟨h₁, hh₁⟩ : ∃ h₁, h₁ = h₀.putRefs j (refs ++ [(u.str H, r)]) := ⟨_, rfl⟩
              have hO : h.outputAdd H j o c sp = h₁.outputTo H r o c sp := by
                unfold BalHeap.outputAdd; rw [hs]; simp only [hu, ht, if_true, hun, hfind, hnew, hh₁, hh₀, hr]
              have hjr : j ≠ r := by have := (List.getElem?_eq_some_iff.mp hs).1; omega
              have w₀ : BInv H h₀ := hh₀ ▸ binv_alloc w (by intro _ e; cases e)
              have e₀ : Eff h h₀ r := hh₀ ▸ eff_alloc r (.inr hr)
              have hs₀ : h₀.bals[j]? = some ⟨.wallets refs, own, id⟩ := e₀.keep j _ hs hjr
              have hr₀ : h₀.bals[r]? = some ⟨.multi owners n, {}, h.ids.length⟩ := by rw [hh₀, balAlloc_get, if_pos hr]
              have hne : ∀ p ∈ refs, p.2 ≠ r := by
                intro p hp e
                obtain ⟨q, _, _, hq, _⟩ := hfiled p hp
                have := (List.getElem?_eq_some_iff.mp hq).1; omega
              have hf₀ : ∀ p ∈ refs ++ [(u.str H, r)], Filed H h₀ p := by
                intro p hp
                rcases List.mem_append.mp hp with hp' | hp'
                · obtain ⟨q, a, b, hq, hx⟩ := hfiled p hp'
                  exact ⟨q, a, b, e₀.keep _ _ hq (hne p hp'), hx⟩
                · rw [List.mem_singleton.mp hp']
                  exact ⟨_, owners, n, hr₀, rfl, hadr⟩
              have w₁ : BInv H h₁ := by
                rw [hh₁]
                refine binv_putRefs w₀ hs₀ rfl hf₀ ?_
                rw [List.map_append, List.nodup_append]
                refine ⟨w.once j _ refs hs rfl, by simp, ?_⟩
                intro x hx y hy
                obtain ⟨q, hq, rfl⟩ := List.mem_map.mp hx
                obtain rfl : y = u.str H := by simpa using hy
                have := (List.any_eq_false.mp hany) q hq
                simpa using this
              have e₁ : Eff h₀ h₁ j := hh₁ ▸ eff_putRefs
              have hr₁ : h₁.bals[r]? = some ⟨.multi owners n, {}, h.ids.length⟩ := e₁.keep _ _ hr₀ (Ne.symm hjr)
              have hs₁ : h₁.bals[j]? = some ⟨.wallets (refs ++ [(u.str H, r)]), own, id⟩ := by rw [hh₁, putRefs_get, if_pos rfl, hs₀]; rfl
              have hids : h₁.ids = h.ids ++ [⟨[]⟩] := by rw [hh₁, putRefs_ids, hh₀]; rfl
              have hload : h₁.load ⟨.multi owners n, {}, h.ids.length⟩ = {} := by
                unfold BalHeap.load BalHeap.id
                rw [hids]
                simp [List.getD_eq_getElem?_getD]
              obtain ⟨h1, h2, h3, h4, s', h5, h6, h7, h8⟩ := obj_outputTo w₁ hr₁ o c sp _ rfl
              rw [hload] at h4 h8
              have hV : W.multiOutputAdd H (u.str H) o c sp = ({ W with wallets := W.wallets ++ [(u.str H, ⟨owners, n, (({} : Balance).outputAdd H o c sp).1⟩)] },
                  (({} : Balance).outputAdd H o c sp).2) := by
                unfold Wallets.multiOutputAdd Wallets.multiFor
                simp only [hun, hget]
                rw [hnew]
                simp only
                unfold MultiMap.put
                rw [if_neg]
                rw [hW]
                rw [shown_any, hany]; simp
              rw [hM, hV, hO]
              refine ⟨h1, fun i x hx nj _ => ?_, ⟨[⟨[]⟩], by rw [h3, hids]⟩, ?_, ?_, h4⟩
              · have hir : i ≠ r := by have := (List.getElem?_eq_some_iff.mp hx).1; omega
                exact h2.keep i x (e₁.keep i x (e₀.keep i x hx hir) nj) hir
              · unfold handedOut; rw [h2.keep j _ hs₁ hjr]; rfl
              · unfold BalHeap.bal
                rw [h2.keep j _ hs₁ hjr]
                show some (AnyBalance.wallets ⟨BalHeap.load _ _, shownRefs (h₁.outputTo H r o c sp).1 (refs ++ [(u.str H, r)])⟩) = _
                rw [h2.load w₁ hs₁ hjr]
                have hl : h₁.load ⟨.wallets (refs ++ [(u.str H, r)]), own, id⟩ = h.load ⟨.wallets refs, own, id⟩ := by
                  unfold BalHeap.load BalHeap.id
                  have hlt : id < h.ids.length := w.idLt j _ hs
                  simp only [hids, List.getD_eq_getElem?_getD]
                  rw [List.getElem?_append_left hlt]
                have hmap : shownRefs (h₁.outputTo H r o c sp).1 (refs ++ [(u.str H, r)]) =
                    shownRefs h refs ++ [(u.str H, ⟨owners, n, (({} : Balance).outputAdd H o c sp).1⟩)] := by
                  unfold shownRefs
                  rw [List.map_append]
                  have : (h₁.outputTo H r o c sp).1.multiAt r = ⟨owners, n, (h₁.outputTo H r o c sp).1.load s'⟩ := by
                    unfold BalHeap.multiAt; rw [h5]; obtain ⟨k, a, b⟩ := s'; cases h6; rfl
                  rw [List.map_singleton, this, h8]
                  congr 1
                  refine List.map_congr_left fun x hx => ?_
                  obtain ⟨y, oy, ny, hy, hym, hya⟩ := hfiled x hx
                  have k0 := e₀.keep _ _ hy (hne x hx)
                  have nj := ((hfiled x hx).ne hs rfl).1
                  rw [h2.multiAt w₁ (e₁.keep _ _ k0 nj) (hne x hx), e₁.multiAt w₀ k0 nj, e₀.multiAt w hy (hne x hx)]
                rw [hmap, hl, hW]
        | _ =>
          refine hself .typeError ?_ ?_
          · unfold BalHeap.outputAdd; rw [hs]; simp only [hu, ht, if_true, hun]
          · rw [hM]; unfold Wallets.multiOutputAdd; simp only [hun]
      · obtain ⟨b₀, hb₀⟩ : ∃ b₀ : Balance, b₀ = { own with addresses := setAdd own.addresses (u.str H) } := ⟨_, rfl⟩
        have hO : h.outputAdd H j o c sp = (h.put j b₀).outputTo H j o c sp := by
          unfold BalHeap.outputAdd; rw [hs]; simp only [hu, ht, if_false, hb₀]
        have hs₀ : (h.put j b₀).bals[j]? = some ⟨.wallets refs, b₀, id⟩ := by rw [put_get, if_pos rfl, hs]; rfl
        have e₀ : Eff h (h.put j b₀) j := eff_put
        have t := outputOk_plain (binv_put w) hs₀ o c sp (fun b => AnyBalance.wallets ⟨b, shownRefs h refs⟩) (by
          intro h' s' hk hm
          obtain ⟨k', own', id'⟩ := s'
          cases hk
          show AnyBalance.wallets ⟨_, shownRefs h' refs⟩ = _
          have : shownRefs h' refs = shownRefs h refs := by
            refine List.map_congr_left fun p hp => ?_
            rw [hm p refs rfl hp]
            obtain ⟨hne, q, hq⟩ := (hfiled p hp).ne hs rfl
            rw [e₀.multiAt w hq hne]
          rw [this])
        have hl : (h.put j b₀).load ⟨.wallets refs, b₀, id⟩ = { h.load ⟨.wallets refs, own, id⟩ with addresses := setAdd (h.load ⟨.wallets refs, own, id⟩).addresses (u.str H) } := by
          rw [load_put, hb₀]; rfl
        have hV : W.outputAdd H o c sp = ({ W with base := (((h.put j b₀).load ⟨.wallets refs, b₀, id⟩).outputAdd H o c sp).1 },
            (((h.put j b₀).load ⟨.wallets refs, b₀, id⟩).outputAdd H o c sp).2) := by
          rw [hl]
          unfold Wallets.outputAdd
          simp only [hu, ht, if_false, hW]
        rw [hO, hV]
        obtain ⟨t1, t2, t3, t4, t5, t6⟩ := t
        refine ⟨t1, fun i q hq ne nw => t2 i q (e₀.keep i q hq ne) ne ?_, by rw [put_ids] at t3; exact t3, t4, ?_, t6⟩
        · unfold walletsOf at nw ⊢; rw [hs₀]; rw [hs] at nw; exact nw
        · rw [t5, hW]

/-! ## Programs -/

/-- One act keeps the objects sound, touches only the balance it is called on and its wallets, and only the identifier of that balance. -/
structure StepOk (H : Bytes → Bytes) (h : BalHeap) (a : BalAct) (h' : BalHeap) : Prop where
  inv : BInv H h'
  keep : ∀ (i : Nat) (q : BalObj), h.bals[i]? = some q → (∀ j, calledOn a = some j → i ≠ j ∧ i ∉ walletsOf h j) → h'.bals[i]? = some q
  ids : ∀ r, r < h.ids.length → (∀ j, calledOn a = some j → handedOut h j ≠ some r) → h'.id r = h.id r
  grow : h.ids.length ≤ h'.ids.length

theorem stepOk_refl {H : Bytes → Bytes} {h : BalHeap} (w : BInv H h) (a : BalAct) : StepOk H h a h := ⟨w, fun _ _ h _ => h, fun _ _ _ => rfl, Nat.le_refl _⟩

theorem stepOk_eff {H : Bytes → Bytes} {h h' : BalHeap} {a : BalAct} {j : Nat} (w : BInv H h') (e : Eff h h' j) (ha : calledOn a = some j) : StepOk H h a h' :=
  ⟨w, fun i q hq hn => e.keep i q hq (hn j ha).1, fun r hr hn => e.ids r hr (hn j ha), e.grow⟩

theorem no_object {h : BalHeap} : handedOut h h.bals.length = none := by
  unfold handedOut; rw [List.getElem?_eq_none (Nat.le_refl _)]; rfl

theorem stepOk_new {H : Bytes → Bytes} {h h' : BalHeap} {a : BalAct} (w : BInv H h') (e : Eff h h' h.bals.length) : StepOk H h a h' :=
  ⟨w, fun i q hq _ => e.keep i q hq (by have := (List.getElem?_eq_some_iff.mp hq).1; omega),
    fun r hr _ => e.ids r hr (by rw [no_object]; simp), e.grow⟩

theorem step_ok {H : Bytes → Bytes} {h : BalHeap} (w : BInv H h) (a : BalAct) : StepOk H h a (h.step H a).1 := by
  cases a with
  | newWallet => exact stepOk_new (binv_alloc w (by intro _ e; cases e)) (eff_alloc _ (.inr rfl))
  | newWallets => exact stepOk_new (binv_alloc w (by intro _ e; cases e; rfl)) (eff_alloc _ (.inr rfl))
  | newMulti owners n =>
    show StepOk H h _ (match MultiBalance.new owners n with | .ok m => (h.alloc (.multi m.owners m.required), none) | .error e => (h, some e) : BalHeap × Option Err).1
    cases MultiBalance.new owners n with
    | error e => exact stepOk_refl w _
    | ok m => exact stepOk_new (binv_alloc w (by intro _ e; cases e)) (eff_alloc _ (.inr rfl))
  | output j o c sp =>
    show StepOk H h _ (h.outputAdd H j o c sp).1
    cases hs : h.bals[j]? with
    | none =>
      have : h.outputAdd H j o c sp = (h, some .indexError) := by unfold BalHeap.outputAdd; rw [hs]
      rw [this]; exact stepOk_refl w _
    | some s =>
      obtain ⟨h1, h2, ⟨l, h3⟩, -, -, -⟩ := obj_output w hs o c sp
      refine ⟨h1, fun i q hq hn => h2 i q hq (hn j rfl).1 (hn j rfl).2, fun r hr _ => ?_, by rw [h3]; simp⟩
      unfold BalHeap.id
      rw [h3]
      simp [List.getD_eq_getElem?_getD, List.getElem?_append_left hr]
  | add j k =>
    show StepOk H h _ (h.add H j k).1
    cases hs : h.bals[j]? with
    | none =>
      have : h.add H j k = (h, .error .indexError) := by unfold BalHeap.add; rw [hs]
      rw [this]; exact stepOk_refl w _
    | some s =>
      cases ho : h.bals[k]? with
      | none =>
        have : h.add H j k = (h, .error .indexError) := by unfold BalHeap.add; rw [hs, ho]
        rw [this]; exact stepOk_refl w _
      | some o =>
        obtain ⟨h1, h2 | h2, -⟩ := obj_add w hs ho
        · exact stepOk_eff h1 h2 rfl
        · exact stepOk_new h1 h2
  | height j v =>
    show StepOk H h _ (match h.bals[j]? with | some s => (h.put j { s.own with height := v }, none) | none => (h, some .indexError) : BalHeap × Option Err).1
    split
    · exact stepOk_eff (binv_put w) eff_put rfl
    · exact stepOk_refl w _
  | time j v =>
    show StepOk H h _ (match h.bals[j]? with | some s => (h.put j { s.own with time := v }, none) | none => (h, some .indexError) : BalHeap × Option Err).1
    split
    · exact stepOk_eff (binv_put w) eff_put rfl
    · exact stepOk_refl w _
  | blockid j v =>
    unfold BalHeap.step
    simp only
    split
    · exact stepOk_refl w _
    · split
      · exact stepOk_eff (binv_newId w) eff_newId rfl
      · split
        · exact stepOk_eff (binv_setId w) eff_setId rfl
        · exact stepOk_refl w _

theorem binv_empty (H : Bytes → Bytes) : BInv H {} := ⟨by simp, by simp, by simp, by simp⟩

theorem binv_run (H : Bytes → Bytes) (l : List BalAct) : BInv H (BalHeap.run H l) := by
  unfold BalHeap.run
  suffices ∀ h, BInv H h → BInv H (l.foldl (fun h a => (h.step H a).1) h) from this _ (binv_empty H)
  induction l with
  | nil => intro h w; exact w
  | cons a l ih => intro h w; exact ih _ (step_ok w a).inv

theorem run_snoc (H : Bytes → Bytes) (l : List BalAct) (a : BalAct) : BalHeap.run H (l ++ [a]) = ((BalHeap.run H l).step H a).1 := by
  unfold BalHeap.run; rw [List.foldl_append]; rfl

/-! ## The theorems -/

/-- Adding an output to a balance gives what adding it to the value gives, whatever objects it shares. -/
theorem C119_output (H : Bytes → Bytes) (l : List BalAct) (j : Nat) (x : AnyBalance) (hx : (BalHeap.run H l).bal j = some x) (o : CoinOutput) (c sp : Bool) :
    (BalHeap.run H (l ++ [.output j o c sp])).bal j = some (outputAdded H o c sp x).1 ∧
    ((BalHeap.run H l).step H (.output j o c sp)).2 = (outputAdded H o c sp x).2 := by
  rw [run_snoc]
  obtain ⟨s, hs, rfl⟩ := Option.map_eq_some_iff.mp hx
  have := obj_output (binv_run H l) hs o c sp
  exact ⟨this.shows, this.err⟩

/-- Adding a balance to another gives what adding the values gives: the same exception, or a returned balance that shows the sum; what is
returned is the balance itself or a new one. -/
theorem C119_sum (H : Bytes → Bytes) (l : List BalAct) (j k : Nat) (x y : AnyBalance) (hx : (BalHeap.run H l).bal j = some x)
    (hy : (BalHeap.run H l).bal k = some y) :
    (∃ e, AnyBalance.add H x (some y) = .error e ∧ ((BalHeap.run H l).add H j k).2 = .error e) ∨
    (∃ n z, AnyBalance.add H x (some y) = .ok z ∧ ((BalHeap.run H l).add H j k).2 = .ok n ∧ (BalHeap.run H (l ++ [.add j k])).bal n = some z ∧
      (n = j ∨ (BalHeap.run H l).bal n = none)) := by
  obtain ⟨s, hs, rfl⟩ := Option.map_eq_some_iff.mp hx
  obtain ⟨o, ho, rfl⟩ := Option.map_eq_some_iff.mp hy
  obtain ⟨-, -, h | ⟨n, z, h1, h2, h3, h4⟩⟩ := obj_add (binv_run H l) hs ho
  · exact .inl h
  · refine .inr ⟨n, z, h2, h3, by rw [run_snoc]; exact h4, h1.imp_right fun e => ?_⟩
    unfold BalHeap.bal
    rw [e, List.getElem?_eq_none (Nat.le_refl _)]; rfl

/-- What is called on one balance leaves every balance alone that has nothing in common with it. -/
theorem C119_apart (H : Bytes → Bytes) (l : List BalAct) (a : BalAct) (i j : Nat) (x : AnyBalance) (hx : (BalHeap.run H l).bal i = some x)
    (ha : calledOn a = some j) (hap : Apart (BalHeap.run H l) i j) : (BalHeap.run H (l ++ [a])).bal i = some x := by
  rw [run_snoc]
  obtain ⟨o, ho, -⟩ := Option.map_eq_some_iff.mp hx
  have w := binv_run H l
  have st := step_ok w a
  obtain ⟨n1, n2, n3, n4⟩ := hap
  rw [← hx]
  refine view_frame w ho fun y hy q hq => ?_
  have : y ≠ j ∧ y ∉ walletsOf (BalHeap.run H l) j := by
    rcases hy with rfl | hy
    · exact ⟨n1, n2⟩
    · exact ⟨fun e => n3 (e ▸ hy), n4 y hy⟩
  refine ⟨st.keep y q hq fun j' e => ?_, st.ids _ (w.idLt y q hq) fun j' e => ?_⟩
  · rw [ha] at e; cases e; exact this
  · rw [ha] at e; cases e; exact other_id w hq this.1

/-- Making a new balance leaves all others alone. -/
theorem C119_new (H : Bytes → Bytes) (l : List BalAct) (a : BalAct) (i : Nat) (x : AnyBalance) (hx : (BalHeap.run H l).bal i = some x)
    (ha : calledOn a = none) : (BalHeap.run H (l ++ [a])).bal i = some x := by
  rw [run_snoc]
  obtain ⟨o, ho, -⟩ := Option.map_eq_some_iff.mp hx
  have w := binv_run H l
  have st := step_ok w a
  rw [← hx]
  refine view_frame w ho fun y hy q hq => ⟨st.keep y q hq fun j' e => ?_, st.ids _ (w.idLt y q hq) fun j' e => ?_⟩ <;>
    (rw [ha] at e; cases e)

theorem view_own {h : BalHeap} {o : BalObj} : ownPart (h.view o) = h.load o := by
  obtain ⟨k, own, id⟩ := o
  cases k <;> rfl

/-- What a personal balance accounts for itself (its outputs, addresses and chain context) is never changed by what is done to another
balance, whatever was merged before. -/
theorem C119_personal (H : Bytes → Bytes) (l : List BalAct) (a : BalAct) (i j : Nat) (x : AnyBalance) (hx : (BalHeap.run H l).bal i = some x)
    (hp : ∀ m, x ≠ .multi m) (ha : calledOn a = some j) (hij : i ≠ j) :
    ∃ y, (BalHeap.run H (l ++ [a])).bal i = some y ∧ ownPart y = ownPart x := by
  rw [run_snoc]
  obtain ⟨o, ho, rfl⟩ := Option.map_eq_some_iff.mp hx
  have w := binv_run H l
  have st := step_ok w a
  have hn : i ∉ walletsOf (BalHeap.run H l) j := by
    intro hi
    unfold walletsOf at hi
    split at hi
    · rename_i refs own id hq
      obtain ⟨p, hpm, hpi⟩ := List.mem_map.mp hi
      obtain ⟨q, owners, n, hq', hm, -⟩ := w.filed j _ refs hq rfl p hpm
      rw [hpi, ho] at hq'
      cases hq'
      obtain ⟨k, own', id'⟩ := o
      cases hm
      exact hp _ rfl
    · cases hi
  have hk : ((BalHeap.run H l).step H a).1.bals[i]? = some o := st.keep i o ho fun j' e => by rw [ha] at e; cases e; exact ⟨hij, hn⟩
  refine ⟨((BalHeap.run H l).step H a).1.view o, by unfold BalHeap.bal; rw [hk]; rfl, ?_⟩
  rw [view_own, view_own]
  unfold BalHeap.load
  rw [st.ids _ (w.idLt i o ho) fun j' e => by rw [ha] at e; cases e; exact other_id w ho hij]

/-! ### Programs that merge plain balances only -/

theorem put_walletsOf {h : BalHeap} {j : Nat} {b : Balance} (i : Nat) : walletsOf (h.put j b) i = walletsOf h i := by
  unfold walletsOf
  rw [put_get]
  by_cases e : i = j
  · rw [if_pos e]
    cases h.bals[i]? with
    | none => rfl
    | some o => obtain ⟨k, own, id⟩ := o; cases k <;> rfl
  · rw [if_neg e]
theorem newId_walletsOf {h : BalHeap} {j : Nat} (i : Nat) : walletsOf (h.newId j) i = walletsOf h i := by
  unfold walletsOf
  rw [newId_get]
  by_cases e : i = j
  · rw [if_pos e]
    cases h.bals[i]? with
    | none => rfl
    | some o => obtain ⟨k, own, id⟩ := o; cases k <;> rfl
  · rw [if_neg e]
theorem setId_walletsOf {h : BalHeap} {j : Nat} {v : Hash} (i : Nat) : walletsOf (h.setId j v) i = walletsOf h i := by
  unfold walletsOf; rw [setId_bals]
theorem putId_walletsOf {h : BalHeap} {j : Nat} {v : Hash} (i : Nat) : walletsOf (h.putId j v) i = walletsOf h i := by
  unfold BalHeap.putId; split
  · exact newId_walletsOf i
  · exact setId_walletsOf i
theorem alloc_walletsOf {h : BalHeap} {k : BalKind} (hk : ∀ refs, k = .wallets refs → refs = []) (i : Nat) : walletsOf (h.alloc k) i = walletsOf h i := by
  unfold walletsOf
  rw [balAlloc_get]
  by_cases e : i = h.bals.length
  · rw [if_pos e, e, List.getElem?_eq_none (Nat.le_refl _)]
    cases k with
    | wallets refs => rw [hk refs rfl]; rfl
    | wallet => rfl
    | multi owners n => rfl
  · rw [if_neg e]
theorem merge_walletsOf {h : BalHeap} {j : Nat} {o : BalObj} (i : Nat) : walletsOf (h.merge j o).1 i = walletsOf h i := by
  unfold BalHeap.merge
  split
  · rfl
  · split
    · rfl
    · show walletsOf (BalHeap.put _ _ _) i = _
      rw [put_walletsOf]
      split
      · rfl
      · exact putId_walletsOf i

/-- An object without wallets. -/
def PlainObj (o : BalObj) : Prop := o.kind = .wallet ∨ o.kind = .wallets []

theorem addTo_walletsOf {H : Bytes → Bytes} {h : BalHeap} {j k : Nat} {o : BalObj} (ho : h.bals[k]? = some o) (hp : PlainObj o) (i : Nat) :
    walletsOf (h.addTo H j k).1 i = walletsOf h i := by
  unfold BalHeap.addTo
  rw [ho]
  obtain ⟨kind, own, id⟩ := o
  rcases hp with hp | hp <;> cases hp
  · exact merge_walletsOf i
  · show walletsOf (match h.merge j ⟨.wallets [], own, id⟩ with | (h, none) => h.holdAll j [] | r => r).1 i = _
    have := merge_walletsOf (h := h) (j := j) (o := ⟨.wallets [], own, id⟩) i
    obtain ⟨r, hr⟩ : ∃ r, r = h.merge j ⟨.wallets [], own, id⟩ := ⟨_, rfl⟩
    rw [← hr] at this ⊢
    obtain ⟨h', e⟩ := r
    cases e <;> exact this

theorem add_walletsOf {H : Bytes → Bytes} {h : BalHeap} (w : BInv H h) {j k : Nat} {s o : BalObj} (hs : h.bals[j]? = some s) (ho : h.bals[k]? = some o)
    (hp : PlainObj o) (hj : ∀ owners n, s.kind ≠ .multi owners n) (i : Nat) : walletsOf (h.add H j k).1 i = walletsOf h i := by
  obtain ⟨kind, own, id⟩ := s
  obtain ⟨kind₂, own₂, id₂⟩ := o
  cases kind with
  | multi owners n => exact absurd rfl (hj owners n)
  | wallets refs =>
    have : (h.add H j k).1 = (h.addTo H j k).1 := by unfold BalHeap.add; rw [hs, ho]
    rw [this]; exact addTo_walletsOf ho hp i
  | wallet =>
    rcases hp with hp | hp <;> cases hp
    · have : (h.add H j k).1 = (h.merge j ⟨.wallet, own₂, id₂⟩).1 := by unfold BalHeap.add; rw [hs, ho]
      rw [this]; exact merge_walletsOf i
    · have hadd : (h.add H j k).1 = (match (h.alloc (.wallets [])).addTo H h.bals.length j with
          | (h', none) => h'.addTo H h.bals.length k
          | r => r).1 := by
        unfold BalHeap.add; rw [hs, ho]
        show (match (h.alloc (.wallets [])).addTo H h.bals.length j with | (h', none) => _ | r => _ : BalHeap × Res Nat).1 = _
        obtain ⟨h', e⟩ := (h.alloc (.wallets [])).addTo H h.bals.length j
        cases e <;> rfl
      rw [hadd]
      have w0 : BInv H (h.alloc (.wallets [])) := binv_alloc w (by intro refs e; cases e; rfl)
      have h0 : (h.alloc (.wallets [])).bals[h.bals.length]? = some ⟨.wallets [], {}, h.ids.length⟩ := by rw [balAlloc_get, if_pos rfl]
      have t1 := addTo_walletsOf (H := H) (j := h.bals.length) (alloc_old (k := .wallets []) hs) (.inl rfl) i
      have t2 := (obj_addTo w0 h0 rfl (alloc_old (k := .wallets []) hs)).2.1
      rw [alloc_walletsOf (by intro refs e; cases e; rfl)] at t1
      obtain ⟨r, hr⟩ : ∃ r, r = (h.alloc (.wallets [])).addTo H h.bals.length j := ⟨_, rfl⟩
      rw [← hr] at t1 t2 ⊢
      obtain ⟨h', e⟩ := r
      cases e with
      | some e => exact t1
      | none =>
        have hk : h'.bals[k]? = some ⟨.wallets [], own₂, id₂⟩ :=
          t2.keep k _ (alloc_old (k := .wallets []) ho) (by have := (List.getElem?_eq_some_iff.mp ho).1; omega)
        exact (addTo_walletsOf (H := H) (j := h.bals.length) hk (.inr rfl) i).trans t1

/-- No wallet is one of two balances. -/
def Disjoint (h : BalHeap) : Prop := ∀ i j, i ≠ j → ∀ r ∈ walletsOf h i, r ∉ walletsOf h j

theorem Disjoint.of_eq {h h' : BalHeap} (d : Disjoint h) (e : ∀ i, walletsOf h' i = walletsOf h i) : Disjoint h' := by
  intro i j ne r hr
  rw [e] at hr ⊢
  exact d i j ne r hr

theorem output_walletsOf {H : Bytes → Bytes} {h : BalHeap} (j : Nat) (o : CoinOutput) (c sp : Bool) :
    (∀ i, walletsOf (h.outputAdd H j o c sp).1 i = walletsOf h i) ∨
    ((∀ i, i ≠ j → walletsOf (h.outputAdd H j o c sp).1 i = walletsOf h i) ∧ walletsOf (h.outputAdd H j o c sp).1 j = walletsOf h j ++ [h.bals.length]) := by
  have outTo : ∀ (h : BalHeap) (r : Nat) (i : Nat), walletsOf (h.outputTo H r o c sp).1 i = walletsOf h i := by
    intro h r i
    unfold BalHeap.outputTo
    split
    · rfl
    · exact put_walletsOf i
  unfold BalHeap.outputAdd
  split
  · exact .inl fun _ => rfl
  · rename_i s hs
    split
    · rename_i refs hk
      split
      · exact .inl fun _ => rfl
      · rename_i u hu
        split
        · split
          · split
            · exact .inl fun i => outTo _ _ i
            · split
              · exact .inl fun _ => rfl
              · rename_i m hm
                refine .inr ⟨fun i ne => ?_, ?_⟩
                · show walletsOf (BalHeap.outputTo _ _ _ _ _ _).1 i = _
                  rw [outTo]
                  unfold walletsOf
                  rw [putRefs_get, if_neg ne]
                  exact alloc_walletsOf (h := h) (k := .multi m.owners m.required) (by intro _ e; cases e) i
                · show walletsOf (BalHeap.outputTo _ _ _ _ _ _).1 j = _
                  rw [outTo]
                  unfold walletsOf
                  rw [putRefs_get, if_pos rfl, alloc_old hs, hs]
                  obtain ⟨k, own, id⟩ := s
                  cases hk
                  simp
          · exact .inl fun _ => rfl
        · refine .inl fun i => ?_
          rw [outTo]; exact put_walletsOf i
    · exact .inl fun i => outTo _ _ i

theorem disjoint_step {H : Bytes → Bytes} {h : BalHeap} (w : BInv H h) (d : Disjoint h) (a : BalAct)
    (ha : ∀ j k, a = .add j k → (∀ b, h.bal k = some b → NoMulti b) ∧ (∀ m, h.bal j ≠ some (.multi m))) : Disjoint (h.step H a).1 := by
  cases a with
  | newWallet => exact d.of_eq (alloc_walletsOf (by intro _ e; cases e))
  | newWallets => exact d.of_eq (alloc_walletsOf (by intro _ e; cases e; rfl))
  | newMulti owners n =>
    show Disjoint (match MultiBalance.new owners n with | .ok m => (h.alloc (.multi m.owners m.required), none) | .error e => (h, some e) : BalHeap × Option Err).1
    cases MultiBalance.new owners n with
    | error e => exact d
    | ok m => exact d.of_eq (alloc_walletsOf (by intro _ e; cases e))
  | output j o c sp =>
    show Disjoint (h.outputAdd H j o c sp).1
    rcases output_walletsOf (H := H) (h := h) j o c sp with e | ⟨e1, e2⟩
    · exact d.of_eq e
    · have hnew : ∀ i, h.bals.length ∉ walletsOf h i := by
        intro i hi
        unfold walletsOf at hi
        split at hi
        · rename_i refs own id hq
          obtain ⟨p, hpm, hpi⟩ := List.mem_map.mp hi
          obtain ⟨q, _, _, hq', _⟩ := w.filed i _ refs hq rfl p hpm
          have := (List.getElem?_eq_some_iff.mp hq').1; omega
        · cases hi
      intro i k ne r hr hr'
      by_cases hi : i = j
      · subst hi
        rw [e1 k (Ne.symm ne)] at hr'
        rw [e2] at hr
        rcases List.mem_append.mp hr with hr | hr
        · exact d i k ne r hr hr'
        · rw [List.mem_singleton.mp hr] at hr'; exact hnew _ hr'
      · rw [e1 i hi] at hr
        by_cases hk : k = j
        · subst hk
          rw [e2] at hr'
          rcases List.mem_append.mp hr' with hr' | hr'
          · exact d i k ne r hr hr'
          · rw [List.mem_singleton.mp hr'] at hr; exact hnew _ hr
        · rw [e1 k hk] at hr'; exact d i k ne r hr hr'
  | add j k =>
    show Disjoint (h.add H j k).1
    obtain ⟨h1, h2⟩ := ha j k rfl
    cases hs : h.bals[j]? with
    | none =>
      have : h.add H j k = (h, .error .indexError) := by unfold BalHeap.add; rw [hs]
      rw [this]; exact d
    | some s =>
      cases ho : h.bals[k]? with
      | none =>
        have : h.add H j k = (h, .error .indexError) := by unfold BalHeap.add; rw [hs, ho]
        rw [this]; exact d
      | some o =>
        refine d.of_eq (add_walletsOf w hs ho ?_ ?_)
        · have := h1 (h.view o) (by unfold BalHeap.bal; rw [ho]; rfl)
          obtain ⟨kind, own, id⟩ := o
          cases kind with
          | wallet => exact .inl rfl
          | multi owners n => exact this.elim
          | wallets refs =>
            have : (refs.map fun p => (p.1, h.multiAt p.2)) = [] := this
            rw [List.map_eq_nil_iff.mp this]; exact .inr rfl
        · intro owners n hk
          obtain ⟨kind, own, id⟩ := s
          cases hk
          exact h2 _ (by unfold BalHeap.bal; rw [hs]; rfl)
  | height j v =>
    show Disjoint (match h.bals[j]? with | some s => (h.put j { s.own with height := v }, none) | none => (h, some .indexError) : BalHeap × Option Err).1
    split
    · exact d.of_eq put_walletsOf
    · exact d
  | time j v =>
    show Disjoint (match h.bals[j]? with | some s => (h.put j { s.own with time := v }, none) | none => (h, some .indexError) : BalHeap × Option Err).1
    split
    · exact d.of_eq put_walletsOf
    · exact d
  | blockid j v =>
    unfold BalHeap.step
    simp only
    split
    · exact d
    · split
      · exact d.of_eq newId_walletsOf
      · split
        · exact d.of_eq setId_walletsOf
        · exact d

theorem disjoint_run (H : Bytes → Bytes) (l : List BalAct) (hl : MergesPlain H l) : Disjoint (BalHeap.run H l) := by
  revert hl
  refine snoc_induction (p := fun l => MergesPlain H l → Disjoint (BalHeap.run H l)) ?_ ?_ l
  · intro _ i j _ r hr; simp [BalHeap.run, walletsOf] at hr
  · intro l a ih hl
    rw [run_snoc]
    refine disjoint_step (binv_run H l) (ih fun pre j k post e => hl pre j k (post ++ [a]) (by rw [e]; simp)) a fun j k e => ?_
    exact hl l j k [] (by rw [e])

/-- In a program that merges plain balances only, whatever is called on a balance leaves every other balance alone, its multi-signature
wallets apart (they are shown by it and are what it shows). -/
theorem C119_alone_partial (H : Bytes → Bytes) (l : List BalAct) (hl : MergesPlain H l) (a : BalAct) (i j : Nat) (x : AnyBalance)
    (hx : (BalHeap.run H l).bal i = some x) (ha : calledOn a = some j) (hij : i ≠ j) (h1 : i ∉ walletsOf (BalHeap.run H l) j)
    (h2 : j ∉ walletsOf (BalHeap.run H l) i) : (BalHeap.run H (l ++ [a])).bal i = some x :=
  C119_apart H l a i j x hx ha ⟨hij, h1, h2, disjoint_run H l hl i j hij⟩

/-! ### Identifiers -/

/-- The identifier a balance handed out is changed by nothing that is called on another balance; one that no balance has any more is never
changed. -/
theorem C119_block_id_partial (H : Bytes → Bytes) (l : List BalAct) (a : BalAct) (r : Nat) (hr : r < (BalHeap.run H l).ids.length)
    (ha : ∀ j, calledOn a = some j → handedOut (BalHeap.run H l) j ≠ some r) : (BalHeap.run H (l ++ [a])).id r = (BalHeap.run H l).id r := by
  rw [run_snoc]
  exact (step_ok (binv_run H l) a).ids r hr ha

/-- No two balances hand out the same identifier object. -/
theorem C119_own_id (H : Bytes → Bytes) (l : List BalAct) (i j r : Nat) (hi : handedOut (BalHeap.run H l) i = some r)
    (hj : handedOut (BalHeap.run H l) j = some r) : i = j := by
  obtain ⟨o, ho, e1⟩ := Option.map_eq_some_iff.mp hi
  obtain ⟨p, hp, e2⟩ := Option.map_eq_some_iff.mp hj
  exact (binv_run H l).idInj i j o p ho hp (e1.trans e2.symm)

/-! ### The chain context -/

theorem eff_own {H : Bytes → Bytes} {h h' : BalHeap} {j : Nat} {s s' : BalObj} (w : BInv H h) (hs : h.bals[j]? = some s) (e : Eff h h' j)
    (hs' : h'.bals[j]? = some s') (hk : s'.kind = s.kind) : h'.bal j = some (withOwn (h'.load s') (h.view s)) := by
  unfold BalHeap.bal
  rw [hs']
  show some (h'.view s') = _
  obtain ⟨k', own', id'⟩ := s'
  obtain ⟨k, own, id⟩ := s
  cases hk
  cases k' with
  | wallet => rfl
  | multi owners n => rfl
  | wallets refs =>
    show some (AnyBalance.wallets ⟨_, shownRefs h' refs⟩) = some (AnyBalance.wallets ⟨_, shownRefs h refs⟩)
    have : shownRefs h' refs = shownRefs h refs := e.wallets w fun p hp => Filed.ne (w.filed j _ refs hs rfl p hp) hs rfl
    rw [this]

/-- The chain context of a balance is what was last assigned: setting height or time changes that alone, setting the block identifier to 32
bytes, given as bytes, as text or as a hash, changes the identifier alone, and setting it to nothing makes it the empty one. -/
theorem C119_chain (H : Bytes → Bytes) (l : List BalAct) (j : Nat) (x : AnyBalance) (hx : (BalHeap.run H l).bal j = some x) :
    (∀ v, (BalHeap.run H (l ++ [.height j v])).bal j = some (withOwn { ownPart x with height := v } x)) ∧
    (∀ v, (BalHeap.run H (l ++ [.time j v])).bal j = some (withOwn { ownPart x with time := v } x)) ∧
    (∀ (id : Hash) v, id.value.length = 32 → v = .bytes id.value ∨ v = .str (toHex id.value) ∨ v = .data id.data →
      (BalHeap.run H (l ++ [.blockid j v])).bal j = some (withOwn { ownPart x with blockid := id } x)) ∧
    (∀ v, v = .none ∨ v = .str [] ∨ v = .bytes [] ∨ v = .data (Hash.data ⟨[]⟩) →
      (BalHeap.run H (l ++ [.blockid j v])).bal j = some (withOwn { ownPart x with blockid := ⟨[]⟩ } x)) := by
  obtain ⟨s, hs, rfl⟩ := Option.map_eq_some_iff.mp hx
  have w := binv_run H l
  simp only [run_snoc]
  obtain ⟨h, hh⟩ : ∃ h, h = BalHeap.run H l := ⟨_, rfl⟩
  rw [← hh] at hs w ⊢
  rw [view_own]
  have hput : ∀ b, (h.put j b).bals[j]? = some { s with own := b } := fun b => by rw [put_get, if_pos rfl, hs]; rfl
  have hbal : ∀ b, (h.put j b).bal j = some (withOwn ((h.put j b).load { s with own := b }) (h.view s)) := fun b => eff_own w hs eff_put (hput b) rfl
  refine ⟨fun v => ?_, fun v => ?_, fun id v hid hv => ?_, fun v hv => ?_⟩
  · have e : (h.step H (.height j v)).1 = h.put j { s.own with height := v } := by unfold BalHeap.step; simp only [hs]
    rw [e, hbal, load_put]; rfl
  · have e : (h.step H (.time j v)).1 = h.put j { s.own with time := v } := by unfold BalHeap.step; simp only [hs]
    rw [e, hbal, load_put]; rfl
  · have hne : id.value ≠ [] := by intro e; rw [e] at hid; cases hid
    have hfal : v.falsy = false := by
      rcases hv with rfl | rfl | rfl
      · cases h : id.value with
        | nil => exact absurd h hne
        | cons a t => rfl
      · cases h : toHex id.value with
        | nil => exact absurd (congrArg List.length h) (by rw [toHex_length, hid]; decide)
        | cons a t => rfl
      · cases h : id.value with
        | nil => exact absurd h hne
        | cons a t => show (id.value).isEmpty = false; rw [h]; rfl
    have hset : BinData.set ⟨[], some 32, .hex⟩ v = .ok ⟨id.value, some 32, .hex⟩ := by
      have hn : v.norm .hex = .ok id.value := by
        rcases hv with rfl | rfl | rfl
        · rfl
        · show (match StrEnc.hex.fromStr (toHex id.value) with | some b => _ | none => _ : Res Bytes) = _
          have : StrEnc.hex.fromStr (toHex id.value) = some id.value := fromHex_toHex _
          rw [this]
        · rfl
      unfold BinData.set
      simp only
      rw [hn]
      show (if id.value.length ≠ 0 ∧ id.value.length ≠ 32 then _ else _ : Res BinData) = _
      rw [if_neg (by rw [hid]; simp)]; rfl
    have e : (h.step H (.blockid j v)).1 = h.setId j id := by
      unfold BalHeap.step; simp only [hs, hfal, Bool.false_eq_true, if_false, hset]
    rw [e, eff_own w hs eff_setId (by rw [setId_bals]; exact hs) rfl]
    have : (h.setId j id).load s = { h.load s with blockid := id } := by
      unfold BalHeap.load BalHeap.setId
      rw [hs]
      simp only
      have hl := w.idLt j s hs
      have : ({ h with ids := h.ids.set s.idRef id } : BalHeap).id s.idRef = id := by
        unfold BalHeap.id; simp [List.getD_eq_getElem?_getD, hl]
      rw [this]
    rw [this]
  · have hfal : v.falsy = true := by rcases hv with rfl | rfl | rfl | rfl <;> rfl
    have e : (h.step H (.blockid j v)).1 = h.newId j := by
      unfold BalHeap.step; simp only [hs, hfal, if_true]
    rw [e, eff_own w hs eff_newId (s' := { s with idRef := h.ids.length }) (by rw [newId_get, if_pos rfl, hs]; rfl) rfl]
    have : (h.newId j).load { s with idRef := h.ids.length } = { h.load s with blockid := ⟨[]⟩ } := by
      unfold BalHeap.load BalHeap.newId
      rw [hs]
      simp only
      have : (⟨h.ids ++ [⟨[]⟩], h.bals.set j { s with idRef := h.ids.length }⟩ : BalHeap).id h.ids.length = ⟨[]⟩ := by
        unfold BalHeap.id; simp [List.getD_eq_getElem?_getD]
      rw [this]
    rw [this]

/-! ### What is false -/

/-- Merging does not copy multi-signature wallets: after a second balance was given the content of a first one, spending the output of a
shared wallet in the second takes it from the first as well, on which nothing was called. -/
theorem C119_merged_false : ∃ (l : List BalAct) (a : BalAct) (i j : Nat) (x y : AnyBalance), (BalHeap.run toyHash l).bal i = some x ∧
    calledOn a = some j ∧ i ≠ j ∧ i ∉ walletsOf (BalHeap.run toyHash l) j ∧ j ∉ walletsOf (BalHeap.run toyHash l) i ∧
    (BalHeap.run toyHash (l ++ [a])).bal i = some y ∧ x ≠ y := by
  have h1 : ((BalHeap.run toyHash [.newWallets, .output 0 coinM true false, .newWallets, .add 2 0]).bal 0).isSome := by decide +kernel
  have h2 : ((BalHeap.run toyHash ([.newWallets, .output 0 coinM true false, .newWallets, .add 2 0] ++ [.output 2 coinM true true])).bal 0).isSome := by
    decide +kernel
  exact ⟨[.newWallets, .output 0 coinM true false, .newWallets, .add 2 0], .output 2 coinM true true, 0, 2, _, _, (Option.some_get h1).symm, rfl, by decide,
    by decide +kernel, by decide +kernel, (Option.some_get h2).symm, by
      intro e
      have e := congrArg some e
      rw [Option.some_get h1, Option.some_get h2] at e
      exact absurd e (by decide +kernel)⟩

/-- A block identifier kept for later comparison follows the balance: after reading `chain_blockid`, setting it to another block also changes
what was read, so that comparing the two says nothing has happened. -/
theorem C119_block_id_false (H : Bytes → Bytes) : ∃ (l : List BalAct) (a : BalAct) (r : Nat), handedOut (BalHeap.run H l) 0 = some r ∧
    (BalHeap.run H l).id r = ⟨List.replicate 32 1⟩ ∧ (BalHeap.run H (l ++ [a])).id r = ⟨List.replicate 32 2⟩ ∧
    handedOut (BalHeap.run H (l ++ [a])) 0 = some r :=
  ⟨[.newWallet, .blockid 0 (.bytes (List.replicate 32 1))], .blockid 0 (.bytes (List.replicate 32 2)), 0, rfl, rfl, rfl, rfl⟩

/-- The hypotheses are met: two balances with wallets of their own, a plain one merged into the first. -/
example : (BalHeap.run toyHash [.newWallets, .output 0 coinM true false, .newWallets, .output 2 coinM true false, .newWallet, .output 4 coinA true false,
      .height 4 3, .time 4 9, .add 0 4]).bals.length = 5 ∧
    walletsOf (BalHeap.run toyHash [.newWallets, .output 0 coinM true false, .newWallets, .output 2 coinM true false]) 0 = [1] ∧
    walletsOf (BalHeap.run toyHash [.newWallets, .output 0 coinM true false, .newWallets, .output 2 coinM true false]) 2 = [3] := by decide +kernel

/-- A program with one merge, of a balance without wallets. -/
def onePlainMerge : List BalAct := [.newWallets, .output 0 coinM true false, .newWallets, .add 0 2]

example : MergesPlain toyHash onePlainMerge := by
  intro pre j k post e
  have hp : pre = onePlainMerge.take 3 ∧ j = 0 ∧ k = 2 := by
    unfold onePlainMerge at e ⊢
    rcases pre with _ | ⟨a, _ | ⟨b, _ | ⟨c, _ | ⟨d, t⟩⟩⟩⟩ <;> simp at e
    obtain ⟨rfl, rfl, rfl, ⟨rfl, rfl⟩, -⟩ := e
    exact ⟨rfl, rfl, rfl⟩
  obtain ⟨rfl, rfl, rfl⟩ := hp
  refine ⟨?_, ?_⟩
  · intro b hb
    have : (BalHeap.run toyHash (onePlainMerge.take 3)).bal 2 = some (.wallets {}) := by decide +kernel
    rw [this] at hb
    cases hb; rfl
  · intro m hm
    have hw : ((BalHeap.run toyHash (onePlainMerge.take 3)).bal 0).any (fun b => match b with | .wallets _ => true | _ => false) = true := by decide +kernel
    rw [hm] at hw
    cases hw

/-- **C119** (block ids): a block id that is no text, bytes or data, or whose bytes are neither empty nor 32, is refused, and no balance changes. -/
theorem C119_blockid_refused (H : Bytes → Bytes) (h : BalHeap) (j : Nat) (hj : (h.bals[j]?).isSome) :
    h.step H (.blockid j .other) = (h, some .typeError) ∧
    ∀ b : Bytes, b.length ≠ 0 → b.length ≠ 32 → h.step H (.blockid j (.bytes b)) = (h, some .valueError) := by
  obtain ⟨s, hs⟩ := Option.isSome_iff_exists.mp hj
  constructor
  · unfold BalHeap.step
    simp only [hs]
    rfl
  · intro b h0 h1
    have hf : (BVal.bytes b).falsy = false := by
      cases b with
      | nil => exact absurd rfl h0
      | cons _ _ => rfl
    have hset : BinData.set ⟨[], some 32, .hex⟩ (.bytes b) = .error .valueError := by
      unfold BinData.set BVal.norm
      show (if b.length ≠ 0 ∧ b.length ≠ 32 then _ else _) = _
      rw [if_pos ⟨h0, h1⟩]
      rfl
    unfold BalHeap.step
    simp only [hs, hf, hset]
    rfl

example : (((BalHeap.run toyHash [.newWallet]).bals[0]?).isSome) = true := by decide

end TF.Props
