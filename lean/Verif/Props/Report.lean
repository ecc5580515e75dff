import Verif.Spec.Report
import Verif.Props.Merge
import Verif.Lemmas.Currency
/-! # C107, C108: what a balance holds and says -/
namespace TF.Props
open TF TF.Spec

/-! ## C107 -/

theorem balRun_snoc (H : Bytes → Bytes) (es : List BalEvent) (e : BalEvent) : balRun H (es ++ [e]) = balStep H (balRun H es) e := by
  simp [balRun]

theorem snoc_induction {α : Type} {p : List α → Prop} (h0 : p []) (hs : ∀ l a, p l → p (l ++ [a])) (l : List α) : p l := by
  rw [← List.reverse_reverse l]
  induction l.reverse with
  | nil => exact h0
  | cons a l ih => rw [List.reverse_cons]; exact hs _ _ ih

theorem spent_snoc {es : List BalEvent} {e : BalEvent} {id : Hash} :
    ReportedSpent (es ++ [e]) id ↔ ReportedSpent es id ∨ ∃ o c, e = .report o c true ∧ o.id = id := by
  constructor
  · rintro ⟨o, c, h, ho⟩
    rcases List.mem_append.1 h with h | h
    · exact .inl ⟨o, c, h, ho⟩
    · exact .inr ⟨o, c, (List.mem_singleton.1 h).symm, ho⟩
  · rintro (⟨o, c, h, ho⟩ | ⟨o, c, rfl, ho⟩)
    · exact ⟨o, c, List.mem_append_left _ h, ho⟩
    · exact ⟨o, c, by simp, ho⟩

theorem confirmed_snoc {es : List BalEvent} {e : BalEvent} {id : Hash} :
    ReportedConfirmed (es ++ [e]) id ↔ ReportedConfirmed es id ∨ ∃ o, e = .report o true false ∧ o.id = id := by
  constructor
  · rintro ⟨o, h, ho⟩
    rcases List.mem_append.1 h with h | h
    · exact .inl ⟨o, h, ho⟩
    · exact .inr ⟨o, (List.mem_singleton.1 h).symm, ho⟩
  · rintro (⟨o, h, ho⟩ | ⟨o, rfl, ho⟩)
    · exact ⟨o, List.mem_append_left _ h, ho⟩
    · exact ⟨o, by simp, ho⟩

theorem confirmed_nil {id : Hash} : ¬ ReportedConfirmed [] id := by rintro ⟨o, h, _⟩; cases h

theorem last_snoc {es : List BalEvent} {e : BalEvent} {id : Hash} :
    LastUnconfirmed (es ++ [e]) id ↔ (∃ o, e = .report o false false ∧ o.id = id) ∨
      (LastUnconfirmed es id ∧ ¬ ∃ o, e = .report o true false ∧ o.id = id) := by
  constructor
  · rintro ⟨before, o, after, h, ho, hn⟩
    rcases List.eq_nil_or_concat after with rfl | ⟨after', e', rfl⟩
    · have := List.append_inj' h rfl
      exact .inl ⟨o, List.singleton_inj.1 this.2, ho⟩
    · rw [List.concat_eq_append] at h hn
      rw [confirmed_snoc] at hn
      rw [show before ++ .report o false false :: (after' ++ [e']) = (before ++ .report o false false :: after') ++ [e'] by simp] at h
      have := List.append_inj' h rfl
      have he := List.singleton_inj.1 this.2
      subst he
      exact .inr ⟨⟨before, o, after', this.1, ho, fun x => hn (.inl x)⟩, fun x => hn (.inr x)⟩
  · rintro (⟨o, rfl, ho⟩ | ⟨⟨before, o, after, rfl, ho, hn⟩, hc⟩)
    · exact ⟨es, o, [], rfl, ho, confirmed_nil⟩
    · exact ⟨before, o, after ++ [e], by simp, ho, by rw [confirmed_snoc]; rintro (h | h); exacts [hn h, hc h]⟩

/-- The four dictionaries after a history. -/
theorem run_keys (H : Bytes → Bytes) (es : List BalEvent) (id : Hash) :
    ((id ∈ (balRun H es).spent.map (·.1) ∨ id ∈ (balRun H es).unconfSpent.map (·.1)) ↔ ReportedSpent es id) ∧
    (id ∈ (balRun H es).outputs.map (·.1) ↔ ReportedConfirmed es id ∧ ¬ ReportedSpent es id) ∧
    (id ∈ (balRun H es).unconf.map (·.1) ↔ LastUnconfirmed es id ∧ ¬ ReportedSpent es id) := by
  induction es using snoc_induction with
  | h0 =>
    refine ⟨⟨by simp [balRun], ?_⟩, ⟨by simp [balRun], ?_⟩, ⟨by simp [balRun], ?_⟩⟩
    · rintro ⟨o, c, h, _⟩; cases h
    · rintro ⟨⟨o, h, _⟩, _⟩; cases h
    · rintro ⟨⟨b, o, a, h, _⟩, _⟩
      have := congrArg List.length h; simp at this
  | hs es e ih =>
    rw [balRun_snoc, spent_snoc, confirmed_snoc, last_snoc]
    generalize balRun H es = b at ih
    obtain ⟨i1, i2, i3⟩ := ih
    cases e with
    | chain t h => simp only [balStep, reduceCtorEq, false_and, exists_false, or_false, not_false_eq_true, and_true, false_or]; exact ⟨i1, i2, i3⟩
    | report o c s =>
      have hd : ∀ c' s', (∃ o', BalEvent.report o c s = .report o' c' s' ∧ o'.id = id) ↔ (c = c' ∧ s = s' ∧ o.id = id) := by
        intro c' s'
        constructor
        · rintro ⟨o', h, h'⟩; cases h; exact ⟨rfl, rfl, h'⟩
        · rintro ⟨rfl, rfl, h⟩; exact ⟨o, rfl, h⟩
      have hs : (∃ o' c', BalEvent.report o c s = .report o' c' true ∧ o'.id = id) ↔ (s = true ∧ o.id = id) := by
        constructor
        · rintro ⟨o', c', h, h'⟩; cases h; exact ⟨rfl, h'⟩
        · rintro ⟨rfl, h⟩; exact ⟨o, c, rfl, h⟩
      rw [hd, hd, hs]
      have hf : ∀ x : Balance, (balStep H b (.report o c s)) = x →
          x.spent = (b.record o c s).spent ∧ x.unconfSpent = (b.record o c s).unconfSpent ∧ x.outputs = (b.record o c s).outputs ∧
          x.unconf = (b.record o c s).unconf := by
        rintro x rfl
        simp only [balStep, Balance.outputAdd]
        split <;> exact ⟨rfl, rfl, rfl, rfl⟩
      obtain ⟨f1, f2, f3, f4⟩ := hf _ rfl
      rw [f1, f2, f3, f4]
      clear f1 f2 f3 f4 hf hd hs
      unfold Balance.record
      by_cases hid : o.id = id
      · subst hid
        cases c <;> cases s <;> simp only [Bool.false_eq_true, if_false, if_true, and_true, and_false, false_or, or_false, or_true,
          true_and, not_false_eq_true, not_true, reduceCtorEq, false_and] <;> (repeat' split) <;>
          simp only [Bool.and_eq_true, Bool.not_eq_true', Bool.not_eq_true, Bool.not_eq_false, OutMap.not_has, OutMap.has_keys, OutMap.mem_put_keys, OutMap.mem_pop_keys] at * <;> tauto
      · have hid' : ¬ id = o.id := fun h => hid h.symm
        cases c <;> cases s <;> simp only [Bool.false_eq_true, if_false, if_true, hid, and_false, or_false, not_false_eq_true, and_true, false_or] <;>
          (repeat' split) <;> (try simp only [OutMap.mem_put_keys, OutMap.mem_pop_keys, hid', or_false, ne_eq, not_false_eq_true, and_true]) <;> exact ⟨i1, i2, i3⟩

theorem run_inv (H : Bytes → Bytes) (es : List BalEvent) : BalInv (balRun H es) := by
  induction es using snoc_induction with
  | h0 => exact balInv_new
  | hs es e ih => rw [balRun_snoc]; exact balStep_inv H ih e

/-- What is counted was reported so. -/
theorem run_values (H : Bytes → Bytes) (es : List BalEvent) :
    (∀ p ∈ (balRun H es).outputs, .report p.2 true false ∈ es) ∧ ∀ p ∈ (balRun H es).unconf, .report p.2 false false ∈ es := by
  induction es using snoc_induction with
  | h0 => exact ⟨by simp [balRun], by simp [balRun]⟩
  | hs es e ih =>
    rw [balRun_snoc]
    generalize balRun H es = b at ih
    obtain ⟨i1, i2⟩ := ih
    have j1 : ∀ p ∈ b.outputs, .report p.2 true false ∈ es ++ [e] := fun p hp => List.mem_append_left _ (i1 p hp)
    have j2 : ∀ p ∈ b.unconf, .report p.2 false false ∈ es ++ [e] := fun p hp => List.mem_append_left _ (i2 p hp)
    cases e with
    | chain t h => exact ⟨j1, j2⟩
    | report o c s =>
      have hf : (balStep H b (.report o c s)).outputs = (b.record o c s).outputs ∧ (balStep H b (.report o c s)).unconf = (b.record o c s).unconf := by
        simp only [balStep, Balance.outputAdd]
        split <;> exact ⟨rfl, rfl⟩
      rw [hf.1, hf.2]
      unfold Balance.record
      constructor
      · intro p hp
        repeat' split at hp
        all_goals first
          | exact j1 p hp
          | exact j1 p (OutMap.mem_pop hp).1
          | (rcases OutMap.mem_put hp with h | rfl
             · exact j1 p h.1
             · simp_all)
      · intro p hp
        repeat' split at hp
        all_goals first
          | exact j2 p hp
          | exact j2 p (OutMap.mem_pop hp).1
          | (rcases OutMap.mem_put hp with h | rfl
             · exact j2 p h.1
             · simp_all)

/-- **C107**. After any history of reports a balance counts exactly the outputs that were reported unspent and never reported spent, each as it was
reported: as confirmed exactly those ever reported confirmed, as unconfirmed exactly those last reported unconfirmed. -/
theorem C107_counted (H : Bytes → Bytes) (es : List BalEvent) (id : Hash) :
    ((∃ co ∈ (balRun H es).outputs.values, co.id = id) ↔ ReportedConfirmed es id ∧ ¬ ReportedSpent es id) ∧
    ((∃ co ∈ (balRun H es).unconf.values, co.id = id) ↔ LastUnconfirmed es id ∧ ¬ ReportedSpent es id) ∧
    (∀ co ∈ (balRun H es).outputs.values, .report co true false ∈ es) ∧ ∀ co ∈ (balRun H es).unconf.values, .report co false false ∈ es := by
  obtain ⟨_, h2, h3⟩ := run_keys H es id
  have hi := run_inv H es
  have key : ∀ m : OutMap, Filed m → ((∃ co ∈ m.values, co.id = id) ↔ id ∈ m.map (·.1)) := by
    intro m hm
    rw [← hm.values]
    simp
  obtain ⟨v1, v2⟩ := run_values H es
  refine ⟨(key _ hi.fo).trans h2, (key _ hi.fu).trans h3, ?_, ?_⟩
  · intro co hco
    obtain ⟨p, hp, rfl⟩ := List.mem_map.1 hco
    exact v1 p hp
  · intro co hco
    obtain ⟨p, hp, rfl⟩ := List.mem_map.1 hco
    exact v2 p hp

theorem unspent_cases {es : List BalEvent} {id : Hash} : ReportedUnspent es id ↔ ReportedConfirmed es id ∨ LastUnconfirmed es id := by
  constructor
  · rintro ⟨o, c, h, ho⟩
    by_cases hc : ReportedConfirmed es id
    · exact .inl hc
    · obtain ⟨before, after, rfl⟩ := List.append_of_mem h
      cases c with
      | true => exact absurd ⟨o, h, ho⟩ hc
      | false =>
        refine .inr ⟨before, o, after, rfl, ho, ?_⟩
        rintro ⟨o', h', ho'⟩
        exact hc ⟨o', by simp [h'], ho'⟩
  · rintro (⟨o, h, ho⟩ | ⟨b, o, a, rfl, ho, _⟩)
    · exact ⟨o, true, h, ho⟩
    · exact ⟨o, false, by simp, ho⟩

/-- **C107**: a balance is active exactly if some output was reported unspent and none of the reports said it is spent. -/
theorem C107_active (H : Bytes → Bytes) (es : List BalEvent) :
    (balRun H es).active = true ↔ ∃ id, ReportedUnspent es id ∧ ¬ ReportedSpent es id := by
  have hne : ∀ m : OutMap, m.length > 0 ↔ ∃ id, id ∈ m.map (·.1) := by
    intro m
    cases m with
    | nil => simp
    | cons p m => exact ⟨fun _ => ⟨p.1, by simp⟩, fun _ => by simp⟩
  simp only [Balance.active, Bool.or_eq_true, decide_eq_true_eq, hne, unspent_cases]
  constructor
  · rintro (⟨id, h⟩ | ⟨id, h⟩)
    · have := (run_keys H es id).2.1.1 h; exact ⟨id, .inl this.1, this.2⟩
    · have := (run_keys H es id).2.2.1 h; exact ⟨id, .inr this.1, this.2⟩
  · rintro ⟨id, h | h, hn⟩
    · exact .inl ⟨id, (run_keys H es id).2.1.2 ⟨h, hn⟩⟩
    · exact .inr ⟨id, (run_keys H es id).2.2.2 ⟨h, hn⟩⟩

theorem mem_setAdd {l : List Str} {x a : Str} : a ∈ setAdd l x ↔ a ∈ l ∨ a = x := by
  unfold setAdd
  split
  · rename_i h
    rw [List.contains_iff_mem] at h
    constructor
    · exact .inl
    · rintro (h' | rfl); exacts [h', h]
  · simp

theorem nodup_setAdd {l : List Str} {x : Str} (h : l.Nodup) : (setAdd l x).Nodup := by
  unfold setAdd
  split
  · exact h
  · rename_i hx
    rw [List.contains_iff_mem] at hx
    rw [List.nodup_append]
    exact ⟨h, by simp, fun a ha b hb => by rw [List.mem_singleton] at hb; subst hb; exact fun he => hx (he ▸ ha)⟩

/-- **C107**: the addresses of a balance are those of all outputs ever reported to it, each once. -/
theorem C107_addresses (H : Bytes → Bytes) (es : List BalEvent) :
    (balRun H es).addresses.Nodup ∧ ∀ a, a ∈ (balRun H es).addresses ↔ ReportedAt H es a := by
  induction es using snoc_induction with
  | h0 => exact ⟨by simp [balRun], fun a => ⟨by simp [balRun], fun ⟨o, c, s, u, h, _⟩ => (by cases h)⟩⟩
  | hs es e ih =>
    rw [balRun_snoc]
    generalize balRun H es = b at ih
    obtain ⟨i1, i2⟩ := ih
    have hsnoc : ∀ a, ReportedAt H (es ++ [e]) a ↔ ReportedAt H es a ∨ ∃ o c s u, e = .report o c s ∧ o.condition.unlockhash H = .ok u ∧ u.str H = a := by
      intro a
      constructor
      · rintro ⟨o, c, s, u, h, h1, h2⟩
        rcases List.mem_append.1 h with h | h
        · exact .inl ⟨o, c, s, u, h, h1, h2⟩
        · exact .inr ⟨o, c, s, u, (List.mem_singleton.1 h).symm, h1, h2⟩
      · rintro (⟨o, c, s, u, h, h1, h2⟩ | ⟨o, c, s, u, rfl, h1, h2⟩)
        · exact ⟨o, c, s, u, List.mem_append_left _ h, h1, h2⟩
        · exact ⟨o, c, s, u, by simp, h1, h2⟩
    simp only [hsnoc]
    cases e with
    | chain t h =>
      refine ⟨i1, fun a => ⟨fun h => .inl ((i2 a).1 h), ?_⟩⟩
      rintro (h | ⟨o, c, s, u, h, _⟩)
      · exact (i2 a).2 h
      · cases h
    | report o c s =>
      have hr : (b.record o c s).addresses = b.addresses := by unfold Balance.record; (repeat' split) <;> rfl
      simp only [balStep, Balance.outputAdd]
      cases hu : o.condition.unlockhash H with
      | error e =>
        simp only [hr]
        refine ⟨i1, fun a => ⟨fun h => .inl ((i2 a).1 h), ?_⟩⟩
        rintro (h | ⟨o, c, s, u, h, h1, _⟩)
        · exact (i2 a).2 h
        · cases h; rw [hu] at h1; cases h1
      | ok u =>
        simp only [hr]
        refine ⟨nodup_setAdd i1, fun a => ?_⟩
        rw [mem_setAdd, i2]
        constructor
        · rintro (h | rfl)
          · exact .inl h
          · exact .inr ⟨o, c, s, u, rfl, hu, rfl⟩
        · rintro (h | ⟨o, c, s, u', h, h1, rfl⟩)
          · exact .inl h
          · cases h; rw [hu] at h1; cases h1; exact .inr rfl

/-- **C107**: combining two balances is refused exactly if the one that is ahead in height is not ahead in time; otherwise the result is at the state of
the chain of the one that is ahead, and has the addresses of both. -/
theorem C107_combined (b o : Balance) :
    ((∃ m, b.merge o = .ok m) ↔ (o.height ≤ b.height ∧ o.time ≤ b.time) ∨ (b.height < o.height ∧ b.time < o.time)) ∧
    (b.merge o = .error .valueError ∨ ∃ m, b.merge o = .ok m) ∧
    ∀ m, b.merge o = .ok m →
      (m.height, m.time, m.blockid) = (if b.height < o.height then (o.height, o.time, o.blockid) else (b.height, b.time, b.blockid)) ∧
      (∀ a, a ∈ m.addresses ↔ a ∈ b.addresses ∨ a ∈ o.addresses) ∧ (b.addresses.Nodup → m.addresses.Nodup) := by
  have hfold : ∀ (l l' : List Str) (a : Str), a ∈ l.foldl setAdd l' ↔ a ∈ l' ∨ a ∈ l := by
    intro l
    induction l with
    | nil => simp
    | cons x l ih => intro l' a; rw [List.foldl_cons, ih, mem_setAdd]; simp only [List.mem_cons]; tauto
  have hnd : ∀ (l l' : List Str), l'.Nodup → (l.foldl setAdd l').Nodup := by
    intro l
    induction l with
    | nil => exact fun _ h => h
    | cons x l ih => intro l' h; rw [List.foldl_cons]; exact ih _ (nodup_setAdd h)
  unfold Balance.merge Balance.mergeChain
  by_cases h1 : b.height ≥ o.height
  · rw [if_pos h1]
    have hlt : ¬ b.height < o.height := by omega
    by_cases h2 : b.time < o.time
    · rw [if_pos h2]
      exact ⟨⟨fun ⟨m, h⟩ => (by cases h), by omega⟩, .inl rfl, fun m h => by cases h⟩
    · rw [if_neg h2]
      refine ⟨⟨fun _ => by omega, fun _ => ⟨_, rfl⟩⟩, .inr ⟨_, rfl⟩, fun m h => ?_⟩
      cases h
      exact ⟨by rw [if_neg hlt], hfold _ _, hnd _ _⟩
  · rw [if_neg h1]
    have hlt : b.height < o.height := by omega
    by_cases h2 : b.time ≥ o.time
    · rw [if_pos h2]
      exact ⟨⟨fun ⟨m, h⟩ => (by cases h), by omega⟩, .inl rfl, fun m h => by cases h⟩
    · rw [if_neg h2]
      refine ⟨⟨fun _ => by omega, fun _ => ⟨_, rfl⟩⟩, .inr ⟨_, rfl⟩, fun m h => ?_⟩
      cases h
      exact ⟨by rw [if_pos hlt], hfold _ _, hnd _ _⟩

/-! ### The wallets of a balance -/

theorem walletsRun_snoc (H : Bytes → Bytes) (es : List BalEvent) (e : BalEvent) : walletsRun H (es ++ [e]) = walletsStep H (walletsRun H es) e := by
  simp [walletsRun]

theorem setAdd_setAdd (l : List Str) (x : Str) : setAdd (setAdd l x) x = setAdd l x := by
  have : (setAdd l x).contains x = true := by rw [List.contains_iff_mem, mem_setAdd]; exact .inr rfl
  generalize setAdd l x = m at this
  unfold setAdd
  rw [if_pos this]

theorem record_addresses (b : Balance) (l : List Str) (o : CoinOutput) (c s : Bool) :
    ({ b with addresses := l } : Balance).record o c s = { b.record o c s with addresses := l } := by
  unfold Balance.record
  cases c <;> cases s <;> simp <;> (repeat' split) <;> rfl

/-- **C107** (a wallet with its multi-signature wallets). Reports are kept apart: the personal part is a balance with exactly the reports that do not concern
multi-signature wallets. -/
theorem C107_personal_part (H : Bytes → Bytes) (es : List BalEvent) : (walletsRun H es).base = balRun H (es.filter (personal H)) := by
  induction es using snoc_induction with
  | h0 => rfl
  | hs es e ih =>
    rw [walletsRun_snoc, List.filter_append]
    generalize walletsRun H es = w at ih
    cases e with
    | chain t h => simp only [List.filter, personal, balRun_snoc, walletsStep, ih, balStep]
    | report o c s =>
      simp only [List.filter, personal, walletsStep, Wallets.outputAdd]
      cases hu : o.condition.unlockhash H with
      | error e => simp [ih]
      | ok u =>
        simp only
        by_cases h3 : u.type = 3
        · simp only [h3, if_true, ne_eq, not_true, decide_false, List.append_nil]
          rw [← ih]
          unfold Wallets.multiOutputAdd
          (repeat' split) <;> rfl
        · simp only [h3, if_false, ne_eq, not_false_eq_true, decide_true, balRun_snoc, balStep, ← ih]
          simp only [Balance.outputAdd, hu, record_addresses, setAdd_setAdd]
          have hr : (w.base.record o c s).addresses = w.base.addresses := by unfold Balance.record; (repeat' split) <;> rfl
          rw [hr]

theorem MultiMap.get_put (m : MultiMap) (a a' : Str) (v : MultiBalance) : (m.put a v).get? a' = if a' = a then some v else m.get? a' := by
  unfold MultiMap.put MultiMap.get?
  split
  · rename_i h
    induction m with
    | nil => simp at h
    | cons p m ih =>
      simp only [List.map_cons, List.find?_cons]
      by_cases hp : p.1 = a
      · simp only [hp, if_true]
        by_cases ha : a' = a
        · subst ha; simp
        · have ha2 : ¬ a = a' := fun h => ha h.symm
          simp only [ha, ha2, if_false, decide_false]
          have : ∀ l : MultiMap, (l.map fun p => if p.1 = a then (p.1, v) else p).find? (fun p => decide (p.1 = a')) = l.find? fun p => decide (p.1 = a') := by
            intro l
            induction l with
            | nil => rfl
            | cons q l ih2 =>
              simp only [List.map_cons, List.find?_cons, ih2]
              by_cases hq : q.1 = a
              · simp [hq, ha2]
              · simp [hq]
          rw [this]
      · have h' : (m.any fun p => decide (p.1 = a)) = true := by simpa [hp] using h
        have := ih h'
        simp only [hp, if_false]
        by_cases hpa : p.1 = a'
        · have ha : ¬ a' = a := fun h => hp (hpa.trans h)
          simp [hpa, ha]
        · simp only [hpa, decide_false]; exact this
  · rename_i h
    rw [List.find?_append]
    by_cases ha : a' = a
    · subst ha
      have : m.find? (fun p => decide (p.1 = a')) = none := by
        rw [List.find?_eq_none]
        intro p hp hpa
        exact h (List.any_eq_true.2 ⟨p, hp, hpa⟩)
      simp [this]
    · have ha2 : ¬ a = a' := fun h => ha h.symm
      cases hf : m.find? (fun p => decide (p.1 = a')) <;> simp [ha, ha2]

/-- **C107** (a wallet with its multi-signature wallets). If all reported outputs of multi-signature wallets are without time lock, then for every
multi-signature address of which an output was reported there is a balance with exactly the reports that concern it, and there are no others. -/
theorem C107_multisig_part_partial (H : Bytes → Bytes) (es : List BalEvent) (hp : PlainMulti H es) (a : Str) :
    (es.filter (concerns H a) = [] → (walletsRun H es).wallets.get? a = none) ∧
    (es.filter (concerns H a) ≠ [] → ∃ owners n u, (walletsRun H es).wallets.get? a = some ⟨owners, n, balRun H (es.filter (concerns H a))⟩ ∧
      (Condition.multiSig owners n).unlockhash H = .ok u ∧ u.str H = a) := by
  induction es using snoc_induction with
  | h0 => exact ⟨fun _ => rfl, fun h => absurd rfl h⟩
  | hs es e ih =>
    have hp' : PlainMulti H es := fun o c s u h => hp o c s u (List.mem_append_left _ h)
    obtain ⟨i1, i2⟩ := ih hp'
    rw [walletsRun_snoc, List.filter_append]
    generalize hw : walletsRun H es = w at i1 i2
    have same : ∀ w' : Wallets, w'.wallets.get? a = w.wallets.get? a → concerns H a e = false →
        ((es.filter (concerns H a) ++ [e].filter (concerns H a) = [] → w'.wallets.get? a = none) ∧
        (es.filter (concerns H a) ++ [e].filter (concerns H a) ≠ [] → ∃ owners n u,
          w'.wallets.get? a = some ⟨owners, n, balRun H (es.filter (concerns H a) ++ [e].filter (concerns H a))⟩ ∧
          (Condition.multiSig owners n).unlockhash H = .ok u ∧ u.str H = a)) := by
      intro w' h1 h2
      simp only [List.filter, h2, List.append_nil, h1]
      exact ⟨i1, i2⟩
    cases e with
    | chain t h => exact same _ rfl rfl
    | report o c s =>
      cases hu : o.condition.unlockhash H with
      | error e => exact same _ (by simp only [walletsStep, Wallets.outputAdd, hu]) (by simp only [concerns, hu])
      | ok u =>
        by_cases h3 : u.type = 3
        · obtain ⟨owners, n, hc, hn1, hn2⟩ := hp o c s u (by simp) hu h3
          have hstep : ∃ m : MultiBalance, (walletsStep H w (.report o c s)).wallets = w.wallets.put (u.str H) { m with base := (m.base.outputAdd H o c s).1 } ∧
              (w.wallets.get? (u.str H) = some m ∨ w.wallets.get? (u.str H) = none ∧ m = ⟨owners, n, {}⟩) := by
            simp only [walletsStep, Wallets.outputAdd, hu, h3, if_true, Wallets.multiOutputAdd]
            have hun : o.condition.unwrap = .multiSig owners n := by rw [hc]; rfl
            simp only [hun, Wallets.multiFor]
            cases hg : w.wallets.get? (u.str H) with
            | some m => exact ⟨m, rfl, .inl rfl⟩
            | none =>
              have h1 : ¬ n < 1 := by omega
              have h2 : ¬ (owners.length : Int) < n := by omega
              simp only [hc, ownersOf, MultiBalance.new, h1, h2, if_false, bind, Except.bind]
              exact ⟨_, rfl, .inr ⟨trivial, rfl⟩⟩
          obtain ⟨m, hm1, hm2⟩ := hstep
          by_cases ha : u.str H = a
          · subst ha
            have hcon : concerns H (u.str H) (.report o c s) = true := by simp [concerns, hu, h3]
            simp only [List.filter, hcon, hm1, MultiMap.get_put, if_true]
            refine ⟨fun h => absurd h (by simp), fun _ => ?_⟩
            rw [balRun_snoc]
            by_cases he : es.filter (concerns H (u.str H)) = []
            · have hnone := i1 he
              rcases hm2 with hm2 | ⟨_, rfl⟩
              · rw [hnone] at hm2; cases hm2
              · refine ⟨owners, n, u, ?_, by rw [← hc]; exact hu, rfl⟩
                rw [he]; rfl
            · obtain ⟨ow, k, u', g1, g2, g3⟩ := i2 he
              rcases hm2 with hm2 | ⟨hm2, _⟩
              · rw [g1] at hm2; cases hm2
                exact ⟨ow, k, u', rfl, g2, g3⟩
              · rw [g1] at hm2; cases hm2
          · refine same _ ?_ (by simp [concerns, hu, ha])
            rw [hm1, MultiMap.get_put, if_neg fun h => ha h.symm]
        · refine same _ ?_ (by simp [concerns, hu, h3])
          simp only [walletsStep, Wallets.outputAdd, hu, h3, if_false]

/-- A time-locked output of a 1-of-1 multi-signature wallet, and one without lock. -/
def lockedM : CoinOutput := { coinM with condition := .lockTime 1600000000 coinM.condition, id := ⟨List.replicate 32 9⟩ }

/-- **C107** (finding). If the first reported output of a multi-signature wallet is time-locked, the report raises `AttributeError` and the output is not
counted anywhere; the same output is counted if an output without lock was reported before. -/
theorem C107_multisig_part_false :
    (walletsRun toyHash [.report lockedM true false]).wallets = [] ∧ ((({} : Wallets).outputAdd toyHash lockedM true false).2 = some .attributeError) ∧
    lockedM ∈ ((walletsRun toyHash [.report coinM true false, .report lockedM true false]).wallets.flatMap fun p => p.2.base.outputs.values) := by
  refine ⟨by decide +kernel, by decide +kernel, by decide +kernel⟩

example : ReportedConfirmed [.report coinA true false, .report coinB true true] coinA.id ∧ ¬ ReportedSpent [.report coinA true false, .report coinB true true] coinA.id := by
  refine ⟨⟨coinA, by simp, rfl⟩, ?_⟩
  rintro ⟨o, c, h, ho⟩
  simp only [List.mem_cons, BalEvent.report.injEq, reduceCtorEq, and_false, List.not_mem_nil, or_false, false_or] at h
  obtain ⟨rfl, _⟩ := h
  revert ho; decide
example : (balRun toyHash [.report coinA true false, .report coinB true true]).active = true := by decide +kernel
example : (balRun toyHash [.report coinA true true]).active = false := by decide +kernel
example : PlainMulti toyHash [.report coinM true false, .report coinA true false] := by
  intro o c s u h hu h3
  simp only [List.mem_cons, BalEvent.report.injEq, List.not_mem_nil, or_false] at h
  rcases h with ⟨rfl, _⟩ | ⟨rfl, _⟩
  · exact ⟨_, _, rfl, by decide, by decide⟩
  · have : (coinA.condition.unlockhash toyHash).toOption.map (·.type) = some 1 := by decide +kernel
    rw [hu] at this
    simp only [Except.toOption, Option.map_some, Option.some.injEq] at this
    rw [h3] at this; cases this
example : ((⟨[], [], [], [], 5, 7, ⟨[]⟩, []⟩ : Balance).merge ⟨[], [], [], [], 6, 8, ⟨[1]⟩, []⟩).toOption.map (·.height) = some 8 := by decide +kernel

/-! ## C108 -/

theorem decimal_eq (s : Str) : decimal s = digVal s := by
  unfold decimal digVal
  generalize 0 = n
  induction s generalizing n with
  | nil => rfl
  | cons c s ih => rw [List.foldl_cons, ih]; rfl

theorem inTft {c : Currency} (h : GoodCurrency c) : InTft (c.str true) (amount c) := by
  obtain ⟨A, F, h1, h2, h3, h4, h5⟩ := str_amount h
  refine ⟨A, F, ?_, h2, h3, ?_, by rw [decimal_eq]; exact h5⟩
  · have : c.str true = c.str false ++ " TFT".toList := by unfold Currency.str; rfl
    rw [this, h1]
    by_cases hF : F = [] <;> simp [hF]
  · intro x hx
    have := h4 x hx
    simp only [isDig, Bool.and_eq_true, decide_eq_true_eq] at this
    exact ⟨this.1, this.2⟩

/-- **C108**. A printed balance tells the exact amounts. -/
theorem C108_report (b : Balance) (h : SaneBalance b) : ∃ s, b.report = .ok s ∧ ReportOf b s := by
  obtain ⟨h1, h2, h3⟩ := h
  have hk : b.knowsChain = true ↔ (b.time > 0 ∧ b.height > 0) := by simp [Balance.knowsChain]
  have hfree : ∀ m : OutMap, (if b.knowsChain then m.values.filter fun co => !b.isLocked co else m.values) = freeIn b m := by
    intro m
    unfold freeIn
    by_cases hb : b.time > 0 ∧ b.height > 0
    · rw [if_pos hb, if_pos (hk.2 hb)]; rfl
    · rw [if_neg hb, if_neg (fun h => hb (hk.1 h))]
  have hlock : ∀ m : OutMap, SaneOutputs m.values →
      ∃ l, (if b.knowsChain then sumCurrency ((m.values.filter fun co => b.isLocked co).map (·.value)) else Currency.set (.int 0)) = .ok l ∧
        GoodCurrency l ∧ amount l = total (lockedIn b m) := by
    intro m hm
    unfold lockedIn
    by_cases hb : b.time > 0 ∧ b.height > 0
    · rw [if_pos hb, if_pos (hk.2 hb)]
      exact sum_sane (SaneOutputs.sublist hm (List.filter_sublist (p := fun co => b.isLocked co)))
    · rw [if_neg hb, if_neg (fun h => hb (hk.1 h))]
      exact ⟨⟨some ⟨false, 0, 0⟩⟩, rfl, good_zero, amount_zero⟩
  obtain ⟨a, a1, a2, a3⟩ := sum_sane (SaneOutputs.sublist h1 (available_sub b))
  obtain ⟨u, u1, u2, u3⟩ := sum_sane (SaneOutputs.sublist h2 (unconfAvailable_sub b))
  obtain ⟨l, l1, l2, l3⟩ := hlock b.outputs h1
  obtain ⟨ul, ul1, ul2, ul3⟩ := hlock b.unconf h2
  obtain ⟨d, d1, d2, d3⟩ := sum_sane h3
  have a3' : amount a = total (freeIn b b.outputs) := by rw [a3, ← hfree]; rfl
  have u3' : amount u = total (freeIn b b.unconf) := by rw [u3, ← hfree]; rfl
  have hsplit : total (freeIn b b.unconf) + total (lockedIn b b.unconf) = total b.unconf.values := by
    unfold freeIn lockedIn
    split
    · exact total_filter b.unconf.values fun co => lockedCheck co.condition.lock b.height b.time
    · simp [total]
  have hd : Currency.set (.cur d) = .ok ⟨some d.value⟩ := rfl
  have hgd : GoodCurrency ⟨some d.value⟩ := d2
  have had : amount ⟨some d.value⟩ = total b.unconfSpent.values := d3
  refine ⟨_, ?_, a.str true, l.str true, u.str true, ul.str true, Currency.str ⟨some d.value⟩ true, a3' ▸ inTft a2, l3 ▸ inTft l2, u3' ▸ inTft u2,
    ul3 ▸ inTft ul2, had ▸ inTft hgd, rfl⟩
  unfold Balance.report Balance.availableCoins Balance.lockedCoins Balance.unconfCoins Balance.unconfLockedCoins
  simp only [a1, l1, u1, ul1, d1, hd, bind, Except.bind, pure, Except.pure]
  have z1 : ((⟨some ⟨false, 0, 0⟩⟩ : Currency).lt u || (⟨some ⟨false, 0, 0⟩⟩ : Currency).lt ul) = true ↔ ¬ total b.unconf.values = 0 := by
    rw [Bool.or_eq_true, lt_amount good_zero u2, lt_amount good_zero ul2, amount_zero, u3', ul3, ← hsplit]; omega
  have z2 : (⟨some ⟨false, 0, 0⟩⟩ : Currency).lt ⟨some d.value⟩ = true ↔ ¬ total b.unconfSpent.values = 0 := by
    rw [lt_amount good_zero hgd, amount_zero, had]; omega
  by_cases y1 : total b.unconf.values = 0 <;> by_cases y2 : total b.unconfSpent.values = 0
  · rw [if_neg (fun h => z1.1 h y1), if_neg (fun h => z2.1 h y2), if_pos y1, if_pos y2]; simp
  · rw [if_neg (fun h => z1.1 h y1), if_pos (z2.2 y2), if_pos y1, if_neg y2]; simp
  · rw [if_pos (z1.2 y1), if_neg (fun h => z2.1 h y2), if_neg y1, if_pos y2]; simp
  · rw [if_pos (z1.2 y1), if_pos (z2.2 y2), if_neg y1, if_neg y2]; simp

theorem intStr_toString (i : Int) : intStr i = (toString i).toList := by
  unfold intStr natStr
  cases i with
  | ofNat n => simp [toString, instToStringInt, Int.repr, Nat.repr]
  | negSucc n =>
    have : (Int.negSucc n) < 0 := Int.negSucc_lt_zero n
    simp [this, toString, instToStringInt, Int.repr, Nat.repr]

theorem natStr_toString (n : Nat) : natStr n = (toString n).toList := by
  simp [natStr, toString, instToStringNat, Nat.repr]

theorem joinComma_eq (l : List Str) : joinComma l = List.intercalate ", ".toList l := by
  induction l with
  | nil => rfl
  | cons a l ih =>
    cases l with
    | nil => simp [joinComma, List.intercalate]
    | cons b l =>
      rw [joinComma, ih]
      · simp [List.intercalate, List.intersperse]
      · simp

theorem heading_eq (clock : Int → Str) (b : Balance) : b.heading clock = headingOf clock b := by
  unfold Balance.heading headingOf
  by_cases h : b.time > 0 ∧ b.height > 0
  · rw [if_pos h, if_pos ⟨h.2, h.1⟩, intStr_toString]; simp
  · rw [if_neg h, if_neg fun h' => h ⟨h'.2, h'.1⟩]

/-- **C108** (a wallet with its multi-signature wallets). A printed balance tells the state of the chain, the exact amounts of the personal part and those of
every multi-signature wallet that has something, in order, with its address and owners. -/
theorem C108_print (H : Bytes → Bytes) (clock : Int → Str) (w : Wallets) (hb : SaneBalance w.base) (hm : ∀ p ∈ w.wallets, SaneBalance p.2.base)
    (ha : ∀ p ∈ w.wallets, ∃ u, (Condition.multiSig p.2.owners p.2.required).unlockhash H = .ok u) :
    ∃ s texts, w.repr H clock = .ok (headingOf clock w.base ++ s ++ texts.flatten) ∧ ReportOf w.base s ∧
      List.Forall₂ (WalletText H) ((w.wallets.map (·.2)).filter (·.base.active)) texts := by
  obtain ⟨s, s1, s2⟩ := C108_report _ hb
  have key : ∀ l : MultiMap, (∀ p ∈ l, SaneBalance p.2.base) → (∀ p ∈ l, ∃ u, (Condition.multiSig p.2.owners p.2.required).unlockhash H = .ok u) →
      ∃ texts : List Str, reportWallets H l = .ok texts.flatten ∧ List.Forall₂ (WalletText H) ((l.map (·.2)).filter (·.base.active)) texts := by
    intro l
    induction l with
    | nil => intro _ _; exact ⟨[], rfl, .nil⟩
    | cons p l ih =>
      obtain ⟨k, m⟩ := p
      intro hs hu
      obtain ⟨ts, t1, t2⟩ := ih (fun q hq => hs q (List.mem_cons_of_mem _ hq)) fun q hq => hu q (List.mem_cons_of_mem _ hq)
      rw [reportWallets]
      by_cases hact : m.base.active = true
      · obtain ⟨r, r1, r2⟩ := C108_report m.base (hs (k, m) List.mem_cons_self)
        obtain ⟨u, hu⟩ := hu (k, m) List.mem_cons_self
        simp only at hu
        rw [if_pos hact]
        simp only [MultiBalance.report, MultiBalance.address, hu, r1, t1, bind, Except.bind, pure, Except.pure]
        obtain ⟨txt, htxt⟩ : ∃ txt : Str, txt = ("\n\nMultiSignature (" ++ toString m.required ++ "-of-" ++ toString m.owners.length ++ ") Wallet ").toList ++ u.str H ++
          ":\nOwners: ".toList ++ List.intercalate ", ".toList (m.owners.map (·.str H)) ++ ['\n'] ++ r := ⟨_, rfl⟩
        refine ⟨txt :: ts, ?_, ?_⟩
        · rw [List.flatten_cons, htxt, joinComma_eq, intStr_toString, natStr_toString]
          simp [List.append_assoc]
        · simp only [List.map_cons, List.filter_cons, hact, if_true]
          exact .cons ⟨u, r, hu, r2, htxt⟩ t2
      · rw [if_neg hact]
        refine ⟨ts, t1, ?_⟩
        simpa [List.filter_cons, hact] using t2
  obtain ⟨ts, t1, t2⟩ := key w.wallets hm ha
  refine ⟨s, ts, ?_, s2, t2⟩
  simp only [Wallets.repr, Balance.repr, s1, t1, heading_eq, bind, Except.bind, pure, Except.pure]

example : ((walletsRun toyHash [.report coinA true false, .report coinM true false, .chain 10 10]).repr toyHash (fun _ => "now".toList)).toOption.map
    (fun s => (s.take 70, s.drop (s.length - 34))) = some ("wallet balance on height 10 at now\n5 TFT available and 0 TFT locked\n\nM".toList,
      "4\n3 TFT available and 0 TFT locked".toList) := by decide +kernel

example : SaneBalance (walletsRun toyHash [.report coinA true false, .report coinB false true]).base := by
  refine ⟨⟨?_, ?_⟩, ⟨?_, ?_⟩, ⟨?_, ?_⟩⟩ <;> (try unfold GoodCurrency IsAmount) <;> decide +kernel

end TF.Props
