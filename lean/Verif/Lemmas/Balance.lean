import Mathlib.Tactic.Tauto
import Verif.Spec.Wallet
import Verif.Props.Primitive
/-! # Dictionaries of outputs, and the invariant of a balance -/
namespace TF
open Spec

theorem OutMap.has_iff {m : OutMap} {k : Hash} : m.has k = true ↔ ∃ p ∈ m, p.1 = k := by simp [OutMap.has]
theorem OutMap.has_keys {m : OutMap} {k : Hash} : m.has k = true ↔ k ∈ m.map (·.1) := by simp [OutMap.has]
theorem OutMap.not_has {m : OutMap} {k : Hash} : m.has k = false ↔ k ∉ m.map (·.1) := by
  rw [← OutMap.has_keys]; simp

theorem OutMap.put_keys (m : OutMap) (k : Hash) (v : CoinOutput) :
    (m.put k v).map (·.1) = if m.has k then m.map (·.1) else m.map (·.1) ++ [k] := by
  unfold OutMap.put
  split
  · rw [List.map_map]
    apply List.map_congr_left
    intro p _
    simp only [Function.comp_apply]
    split <;> rfl
  · simp

theorem OutMap.mem_put {m : OutMap} {k : Hash} {v : CoinOutput} {p : Hash × CoinOutput} (h : p ∈ m.put k v) : p ∈ m ∧ p.1 ≠ k ∨ p = (k, v) := by
  unfold OutMap.put at h
  split at h
  · obtain ⟨q, hq, rfl⟩ := List.mem_map.1 h
    split
    · rename_i hk; right; rw [hk]
    · rename_i hk; exact .inl ⟨hq, hk⟩
  · rename_i hh
    rcases List.mem_append.1 h with h | h
    · refine .inl ⟨h, fun hk => ?_⟩
      exact hh (OutMap.has_iff.2 ⟨p, h, hk⟩)
    · exact .inr (List.mem_singleton.1 h)

theorem OutMap.mem_put_keys {m : OutMap} {k k' : Hash} {v : CoinOutput} : k' ∈ (m.put k v).map (·.1) ↔ k' ∈ m.map (·.1) ∨ k' = k := by
  rw [OutMap.put_keys]
  split
  · rename_i h
    rw [OutMap.has_keys] at h
    constructor
    · exact .inl
    · rintro (h' | rfl)
      · exact h'
      · exact h
  · simp

theorem OutMap.mem_pop_keys {m : OutMap} {k k' : Hash} : k' ∈ (m.pop k).map (·.1) ↔ k' ∈ m.map (·.1) ∧ k' ≠ k := by
  unfold OutMap.pop
  constructor
  · intro h
    obtain ⟨p, hp, rfl⟩ := List.mem_map.1 h
    rw [List.mem_filter] at hp
    exact ⟨List.mem_map.2 ⟨p, hp.1, rfl⟩, by simpa using hp.2⟩
  · rintro ⟨h, hk⟩
    obtain ⟨p, hp, rfl⟩ := List.mem_map.1 h
    exact List.mem_map.2 ⟨p, List.mem_filter.2 ⟨hp, by simpa using hk⟩, rfl⟩

theorem OutMap.mem_pop {m : OutMap} {k : Hash} {p : Hash × CoinOutput} (h : p ∈ m.pop k) : p ∈ m ∧ p.1 ≠ k := by
  simpa [OutMap.pop] using h

theorem OutMap.nodup_put {m : OutMap} {k : Hash} {v : CoinOutput} (h : (m.map (·.1)).Nodup) : ((m.put k v).map (·.1)).Nodup := by
  rw [OutMap.put_keys]
  split
  · exact h
  · rename_i hh
    rw [List.nodup_append]
    refine ⟨h, by simp, ?_⟩
    intro a ha b hb hab
    rw [List.mem_singleton] at hb
    subst hb; subst hab
    exact hh (OutMap.has_keys.2 ha)

theorem OutMap.nodup_pop {m : OutMap} {k : Hash} (h : (m.map (·.1)).Nodup) : ((m.pop k).map (·.1)).Nodup :=
  h.sublist (List.Sublist.map _ List.filter_sublist)

theorem OutMap.mem_update_keys {m o : OutMap} {k : Hash} : k ∈ (m.update o).map (·.1) ↔ k ∈ m.map (·.1) ∨ k ∈ o.map (·.1) := by
  unfold OutMap.update
  induction o generalizing m with
  | nil => simp
  | cons p o ih =>
    rw [List.foldl_cons, ih, OutMap.mem_put_keys, List.map_cons, List.mem_cons]
    tauto

theorem OutMap.mem_update {m o : OutMap} {p : Hash × CoinOutput} (h : p ∈ m.update o) : p ∈ m ∨ p ∈ o := by
  unfold OutMap.update at h
  induction o generalizing m with
  | nil => exact .inl h
  | cons q o ih =>
    rw [List.foldl_cons] at h
    rcases ih h with h | h
    · rcases OutMap.mem_put h with h | rfl
      · exact .inl h.1
      · exact .inr (List.mem_cons_self)
    · exact .inr (List.mem_cons_of_mem _ h)

/-- Every entry is filed under the id of its output. -/
def Filed (m : OutMap) : Prop := ∀ p ∈ m, p.1 = p.2.id

theorem Filed.put {m : OutMap} (h : Filed m) (o : CoinOutput) : Filed (m.put o.id o) := by
  intro p hp
  rcases OutMap.mem_put hp with hp | rfl
  · exact h p hp.1
  · rfl
theorem Filed.pop {m : OutMap} (h : Filed m) (k : Hash) : Filed (m.pop k) := fun p hp => h p (OutMap.mem_pop hp).1
theorem Filed.values {m : OutMap} (h : Filed m) : m.values.map (·.id) = m.map (·.1) := by
  unfold OutMap.values
  rw [List.map_map]
  exact List.map_congr_left fun p hp => (h p hp).symm

/-- The invariant of a balance. -/
structure BalInv (b : Balance) : Prop where
  fo : Filed b.outputs
  fs : Filed b.spent
  fu : Filed b.unconf
  fus : Filed b.unconfSpent
  no : (b.outputs.map (·.1)).Nodup
  nu : (b.unconf.map (·.1)).Nodup
  out : ∀ k, k ∈ b.outputs.map (·.1) ∨ k ∈ b.unconf.map (·.1) → k ∉ b.spent.map (·.1) ∧ k ∉ b.unconfSpent.map (·.1)

/-- An id is known to be spent. -/
def KnownSpent (b : Balance) (k : Hash) : Prop := k ∈ b.spent.map (·.1) ∨ k ∈ b.unconfSpent.map (·.1)

theorem balInv_new : BalInv {} := ⟨by simp [Filed], by simp [Filed], by simp [Filed], by simp [Filed], by simp, by simp, by simp⟩

theorem record_inv {b : Balance} (hb : BalInv b) (o : CoinOutput) (c s : Bool) : BalInv (b.record o c s) := by
  obtain ⟨fo, fs, fu, fus, no, nu, out⟩ := hb
  unfold Balance.record
  split
  · split
    · refine ⟨fo.pop _, fs.put _, fu.pop _, fus.pop _, OutMap.nodup_pop no, OutMap.nodup_pop nu, ?_⟩
      intro k hk
      simp only [OutMap.mem_pop_keys, OutMap.mem_put_keys] at hk ⊢
      have := out k
      tauto
    · split
      · rename_i hh
        simp only [Bool.and_eq_true, Bool.not_eq_true', OutMap.not_has] at hh
        refine ⟨fo.put _, fs, fu.pop _, fus, OutMap.nodup_put no, OutMap.nodup_pop nu, ?_⟩
        intro k hk
        simp only [OutMap.mem_pop_keys, OutMap.mem_put_keys] at hk
        by_cases hko : k = o.id
        · subst hko; exact hh
        · have := out k; tauto
      · exact ⟨fo, fs, fu, fus, no, nu, out⟩
  · split
    · rename_i hh
      simp only [Bool.not_eq_true', OutMap.not_has] at hh
      split
      · refine ⟨fo.pop _, fs, fu.pop _, fus.put _, OutMap.nodup_pop no, OutMap.nodup_pop nu, ?_⟩
        intro k hk
        simp only [OutMap.mem_pop_keys, OutMap.mem_put_keys] at hk ⊢
        have := out k
        tauto
      · split
        · rename_i hh2
          simp only [Bool.not_eq_true', OutMap.not_has] at hh2
          refine ⟨fo, fs, fu.put _, fus, no, OutMap.nodup_put nu, ?_⟩
          intro k hk
          simp only [OutMap.mem_put_keys] at hk
          by_cases hko : k = o.id
          · subst hko; exact ⟨hh, hh2⟩
          · have := out k; tauto
        · exact ⟨fo, fs, fu, fus, no, nu, out⟩
    · exact ⟨fo, fs, fu, fus, no, nu, out⟩

theorem record_spent_mono {b : Balance} {k : Hash} (h : KnownSpent b k) (o : CoinOutput) (c s : Bool) : KnownSpent (b.record o c s) k := by
  unfold Balance.record KnownSpent at *
  by_cases hko : k = o.id <;> (repeat' split) <;> (try simp only [OutMap.mem_pop_keys, OutMap.mem_put_keys]) <;> tauto

theorem record_spent (b : Balance) (o : CoinOutput) (c : Bool) : KnownSpent (b.record o c true) o.id := by
  unfold Balance.record KnownSpent
  split
  · simp [OutMap.mem_put_keys]
  · by_cases h : b.spent.has o.id
    · simp only [h, Bool.not_true]
      exact .inl (OutMap.has_keys.1 h)
    · simp [h, OutMap.mem_put_keys]

theorem outputAdd_eq (H : Bytes → Bytes) (b : Balance) (o : CoinOutput) (c s : Bool) :
    ∃ a, (b.outputAdd H o c s).1 = { b.record o c s with addresses := a } := by
  unfold Balance.outputAdd
  simp only
  split
  · exact ⟨_, rfl⟩
  · exact ⟨(b.record o c s).addresses, rfl⟩

theorem BalInv.addr {b : Balance} (h : BalInv b) (a : List Str) : BalInv { b with addresses := a } :=
  ⟨h.fo, h.fs, h.fu, h.fus, h.no, h.nu, h.out⟩
theorem BalInv.chain {b : Balance} (h : BalInv b) (t x : Int) : BalInv { b with time := t, height := x } :=
  ⟨h.fo, h.fs, h.fu, h.fus, h.no, h.nu, h.out⟩

theorem outputAdd_inv (H : Bytes → Bytes) {b : Balance} (hb : BalInv b) (o : CoinOutput) (c s : Bool) : BalInv (b.outputAdd H o c s).1 := by
  obtain ⟨a, ha⟩ := outputAdd_eq H b o c s
  rw [ha]
  exact (record_inv hb o c s).addr a

theorem outputAdd_spent_mono (H : Bytes → Bytes) {b : Balance} {k : Hash} (h : KnownSpent b k) (o : CoinOutput) (c s : Bool) :
    KnownSpent (b.outputAdd H o c s).1 k := by
  obtain ⟨a, ha⟩ := outputAdd_eq H b o c s
  rw [ha]
  exact record_spent_mono h o c s

theorem outputAdd_spent (H : Bytes → Bytes) (b : Balance) (o : CoinOutput) (c : Bool) : KnownSpent (b.outputAdd H o c true).1 o.id := by
  obtain ⟨a, ha⟩ := outputAdd_eq H b o c true
  rw [ha]
  exact record_spent b o c

theorem balStep_inv (H : Bytes → Bytes) {b : Balance} (hb : BalInv b) (e : BalEvent) : BalInv (balStep H b e) := by
  cases e with
  | report o c s => exact outputAdd_inv H hb o c s
  | chain t h => exact hb.chain t h

theorem balStep_spent_mono (H : Bytes → Bytes) {b : Balance} {k : Hash} (h : KnownSpent b k) (e : BalEvent) : KnownSpent (balStep H b e) k := by
  cases e with
  | report o c s => exact outputAdd_spent_mono H h o c s
  | chain t x => exact h

theorem available_sub (b : Balance) : b.available.Sublist b.outputs.values := by
  unfold Balance.available; split
  · exact List.filter_sublist
  · exact List.Sublist.refl _
theorem unconfAvailable_sub (b : Balance) : b.unconfAvailable.Sublist b.unconf.values := by
  unfold Balance.unconfAvailable; split
  · exact List.filter_sublist
  · exact List.Sublist.refl _
theorem spendable_sub (b : Balance) : (spendable b).Sublist (counted b) := (available_sub b).append (unconfAvailable_sub b)

theorem BalInv.counted_ids {b : Balance} (h : BalInv b) : (counted b).map (·.id) = b.outputs.map (·.1) ++ b.unconf.map (·.1) := by
  unfold counted
  rw [List.map_append, h.fo.values, h.fu.values]

theorem BalInv.not_spendable {b : Balance} (h : BalInv b) {k : Hash} (hk : KnownSpent b k) : ∀ co ∈ counted b, co.id ≠ k := by
  intro co hco e
  have : co.id ∈ (counted b).map (·.id) := List.mem_map.2 ⟨co, hco, rfl⟩
  rw [h.counted_ids, List.mem_append, e] at this
  have := h.out k this
  rcases hk with hk | hk
  · exact this.1 hk
  · exact this.2 hk

/-! ## Sums -/

theorem add_amount {a b : Currency} (ha : GoodCurrency a) (hb : GoodCurrency b) (h : amount a + amount b < 10 ^ 28) :
    ∃ c, a.add (.cur b) = .ok c ∧ GoodCurrency c ∧ amount c = amount a + amount b := by
  obtain ⟨c, h1, h2⟩ := (Props.C15_add_sub_exact_partial a b ha hb).1 h
  exact ⟨c, h1, add_good h1, h2⟩

theorem sub_amount {a b : Currency} (ha : GoodCurrency a) (hb : GoodCurrency b) (h : amount a < 10 ^ 28) (hle : amount b ≤ amount a) :
    ∃ c, a.sub (.cur b) = .ok c ∧ GoodCurrency c ∧ amount c = amount a - amount b := by
  obtain ⟨c, h1, h2⟩ := (Props.C15_add_sub_exact_partial a b ha hb).2.1 h hle
  exact ⟨c, h1, sub_good h1, h2⟩

theorem le_amount {a b : Currency} (ha : GoodCurrency a) (hb : GoodCurrency b) : a.le b = true ↔ amount a ≤ amount b := by
  have := cmp_units ha hb
  unfold Currency.le Currency.lt Currency.eqv
  rw [Bool.or_eq_true, this.1, this.2]
  unfold amount; omega

theorem lt_amount {a b : Currency} (ha : GoodCurrency a) (hb : GoodCurrency b) : a.lt b = true ↔ amount a < amount b :=
  (cmp_units ha hb).1

theorem eqv_amount {a b : Currency} (ha : GoodCurrency a) (hb : GoodCurrency b) : a.eqv b = true ↔ amount a = amount b :=
  (cmp_units ha hb).2

theorem total_cons (co : CoinOutput) (l : List CoinOutput) : total (co :: l) = amount co.value + total l := by simp [total]
theorem total_append (l l' : List CoinOutput) : total (l ++ l') = total l + total l' := by simp [total]
theorem total_nil : total [] = 0 := rfl
theorem total_perm {l l' : List CoinOutput} (h : l.Perm l') : total l = total l' := (h.map _).sum_nat
theorem total_sublist {l l' : List CoinOutput} (h : l.Sublist l') : total l ≤ total l' := by
  induction h with
  | slnil => exact Nat.le_refl _
  | cons a _ ih => rw [total_cons]; omega
  | cons_cons a _ ih => rw [total_cons, total_cons]; omega

theorem good_zero : GoodCurrency ⟨some ⟨false, 0, 0⟩⟩ := ⟨rfl, by decide⟩
theorem amount_zero : amount ⟨some ⟨false, 0, 0⟩⟩ = 0 := by decide
theorem amount_none : amount ⟨none⟩ = 0 := by decide

theorem foldl_sum (l : List CoinOutput) (acc : Currency) (ha : GoodCurrency acc) (hl : ∀ co ∈ l, GoodCurrency co.value)
    (h : amount acc + total l < 10 ^ 28) :
    ∃ c, (l.map (·.value)).foldlM (fun acc v => acc.add (.cur v)) acc = (.ok c : Res Currency) ∧ GoodCurrency c ∧ amount c = amount acc + total l := by
  induction l generalizing acc with
  | nil => exact ⟨acc, rfl, ha, by simp [total]⟩
  | cons co l ih =>
    rw [total_cons] at h
    obtain ⟨c, h1, h2, h3⟩ := add_amount ha (hl co List.mem_cons_self) (by omega)
    obtain ⟨c', h4, h5, h6⟩ := ih c h2 (fun x hx => hl x (List.mem_cons_of_mem _ hx)) (by omega)
    refine ⟨c', ?_, h5, by rw [h6, total_cons]; omega⟩
    rw [List.map_cons, List.foldlM_cons, h1]
    exact h4

theorem sum_sane {l : List CoinOutput} (h : SaneOutputs l) :
    ∃ c, sumCurrency (l.map (·.value)) = .ok c ∧ GoodCurrency c ∧ amount c = total l := by
  obtain ⟨c, h1, h2, h3⟩ := foldl_sum l _ good_zero h.1 (by rw [amount_zero]; have := h.2; omega)
  exact ⟨c, h1, h2, by rw [h3, amount_zero]; omega⟩

theorem SaneOutputs.sublist {l l' : List CoinOutput} (h : SaneOutputs l') (hs : l.Sublist l') : SaneOutputs l :=
  ⟨fun co hco => h.1 co (hs.subset hco), Nat.lt_of_le_of_lt (total_sublist hs) h.2⟩

theorem total_filter (l : List CoinOutput) (p : CoinOutput → Bool) : total (l.filter fun x => !p x) + total (l.filter p) = total l := by
  induction l with
  | nil => rfl
  | cons a l ih =>
    simp only [List.filter_cons]
    cases p a <;> simp [total_cons] <;> omega

/-! ## Several wallets -/

theorem record_counted {b : Balance} {o : CoinOutput} {c s : Bool} {co : CoinOutput} (h : co ∈ counted (b.record o c s)) :
    co ∈ counted b ∨ co = o := by
  have put : ∀ (m : OutMap) (x : CoinOutput), x ∈ (m.put o.id o).values → x ∈ m.values ∨ x = o := by
    intro m x hx
    obtain ⟨p, hp, rfl⟩ := List.mem_map.1 hx
    rcases OutMap.mem_put hp with hp | rfl
    · exact .inl (List.mem_map.2 ⟨p, hp.1, rfl⟩)
    · exact .inr rfl
  have pop : ∀ (m : OutMap) (k : Hash) (x : CoinOutput), x ∈ (m.pop k).values → x ∈ m.values := by
    intro m k x hx
    obtain ⟨p, hp, rfl⟩ := List.mem_map.1 hx
    exact List.mem_map.2 ⟨p, (OutMap.mem_pop hp).1, rfl⟩
  unfold Balance.record counted at *
  simp only [List.mem_append] at *
  (repeat' split at h) <;> first
    | exact .inl h
    | (have h1 := put b.outputs co; have h2 := put b.unconf co; have h3 := pop b.outputs o.id co; have h4 := pop b.unconf o.id co; tauto)

theorem outputAdd_counted {H : Bytes → Bytes} {b : Balance} {o : CoinOutput} {c s : Bool} {co : CoinOutput}
    (h : co ∈ counted (b.outputAdd H o c s).1) : co ∈ counted b ∨ co = o := by
  obtain ⟨a, ha⟩ := outputAdd_eq H b o c s
  rw [ha] at h
  exact record_counted h

theorem MultiMap.get_mem {m : MultiMap} {a : Str} {v : MultiBalance} (h : m.get? a = some v) : (a, v) ∈ m := by
  unfold MultiMap.get? at h
  cases hf : m.find? fun p => p.1 = a with
  | none => simp [hf] at h
  | some p =>
    simp only [hf, Option.map_some, Option.some.injEq] at h
    have h1 := List.mem_of_find?_eq_some hf
    have h2 := List.find?_some hf
    simp only [decide_eq_true_eq] at h2
    subst h2; subst h
    exact h1

theorem MultiMap.get_none {m : MultiMap} {a : Str} (h : m.get? a = none) : a ∉ m.map (·.1) := by
  unfold MultiMap.get? at h
  simp only [Option.map_eq_none_iff, List.find?_eq_none, decide_eq_true_eq] at h
  intro hm
  obtain ⟨p, hp, rfl⟩ := List.mem_map.1 hm
  exact h p hp rfl

theorem MultiMap.mem_put {m : MultiMap} {a : Str} {v : MultiBalance} {p : Str × MultiBalance} (h : p ∈ m.put a v) : p ∈ m ∧ p.1 ≠ a ∨ p = (a, v) := by
  unfold MultiMap.put at h
  split at h
  · obtain ⟨q, hq, rfl⟩ := List.mem_map.1 h
    split
    · rename_i hk; right; rw [hk]
    · rename_i hk; exact .inl ⟨hq, hk⟩
  · rename_i hh
    rcases List.mem_append.1 h with h | h
    · refine .inl ⟨h, fun hk => ?_⟩
      exact hh (by simp only [List.any_eq_true, decide_eq_true_eq]; exact ⟨p, h, hk⟩)
    · exact .inr (List.mem_singleton.1 h)

theorem MultiMap.put_mem (m : MultiMap) (a : Str) (v : MultiBalance) : (a, v) ∈ m.put a v := by
  unfold MultiMap.put
  split
  · rename_i h
    simp only [List.any_eq_true, decide_eq_true_eq] at h
    obtain ⟨p, hp, hk⟩ := h
    exact List.mem_map.2 ⟨p, hp, by rw [if_pos hk, hk]⟩
  · simp

theorem MultiMap.put_other {m : MultiMap} {a : Str} {v : MultiBalance} {p : Str × MultiBalance} (h : p ∈ m) (hp : p.1 ≠ a) : p ∈ m.put a v := by
  unfold MultiMap.put
  split
  · exact List.mem_map.2 ⟨p, h, by rw [if_neg hp]⟩
  · exact List.mem_append_left _ h

theorem MultiMap.put_keys (m : MultiMap) (a : Str) (v : MultiBalance) :
    (m.put a v).map (·.1) = if (m.any fun p => p.1 = a) then m.map (·.1) else m.map (·.1) ++ [a] := by
  unfold MultiMap.put
  split
  · rw [List.map_map]
    apply List.map_congr_left
    intro p _
    simp only [Function.comp_apply]
    split <;> rfl
  · simp

theorem MultiMap.nodup_put {m : MultiMap} {a : Str} {v : MultiBalance} (h : (m.map (·.1)).Nodup) : ((m.put a v).map (·.1)).Nodup := by
  rw [MultiMap.put_keys]
  split
  · exact h
  · rename_i hh
    rw [List.nodup_append]
    refine ⟨h, by simp, ?_⟩
    intro x hx y hy hxy
    rw [List.mem_singleton] at hy
    subst hy; subst hxy
    obtain ⟨p, hp, rfl⟩ := List.mem_map.1 hx
    exact hh (by simp only [List.any_eq_true, decide_eq_true_eq]; exact ⟨p, hp, rfl⟩)

/-- The invariant of a balance of several wallets whose outputs satisfy `P`. -/
structure WInv (H : Bytes → Bytes) (P : CoinOutput → Prop) (w : Wallets) : Prop where
  base : BalInv w.base
  baseP : ∀ co ∈ counted w.base, P co ∧ ∃ u, co.condition.unlockhash H = .ok u ∧ u.type ≠ 3
  multi : ∀ p ∈ w.wallets, BalInv p.2.base
  multiP : ∀ p ∈ w.wallets, ∀ co ∈ counted p.2.base, P co ∧ ∃ u, co.condition.unlockhash H = .ok u ∧ u.type = 3 ∧ u.str H = p.1
  keys : (w.wallets.map (·.1)).Nodup

/-- What a report does to the wallets. -/
theorem walletsAdd_cases (H : Bytes → Bytes) (w : Wallets) (o : CoinOutput) (c s : Bool) :
    ((w.outputAdd H o c s).1 = w ∧ (w.outputAdd H o c s).2 ≠ none) ∨
    (∃ u a, o.condition.unlockhash H = .ok u ∧ u.type ≠ 3 ∧
      (w.outputAdd H o c s).1 = { w with base := (({ w.base with addresses := a } : Balance).outputAdd H o c s).1 }) ∨
    (∃ u m, o.condition.unlockhash H = .ok u ∧ u.type = 3 ∧
      ((u.str H, m) ∈ w.wallets ∨ u.str H ∉ w.wallets.map (·.1) ∧ m.base = {}) ∧
      (w.outputAdd H o c s).1 = { w with wallets := w.wallets.put (u.str H) { m with base := (m.base.outputAdd H o c s).1 } }) := by
  unfold Wallets.outputAdd
  cases hu : o.condition.unlockhash H with
  | error e => left; simp
  | ok u =>
    simp only
    split
    · rename_i h3
      unfold Wallets.multiOutputAdd
      split
      · cases hm : w.multiFor (u.str H) o with
        | error e => left; simp
        | ok m =>
          right; right
          refine ⟨u, m, rfl, h3, ?_, rfl⟩
          unfold Wallets.multiFor at hm
          split at hm
          · rename_i hg
            cases hm
            exact .inl (MultiMap.get_mem hg)
          · rename_i hg
            refine .inr ⟨MultiMap.get_none hg, ?_⟩
            cases ho : ownersOf o.condition with
            | error e => simp [ho, bind, Except.bind] at hm
            | ok x =>
              simp only [ho, bind, Except.bind] at hm
              unfold MultiBalance.new at hm
              repeat' split at hm
              all_goals first | (cases hm; done) | (cases hm; rfl)
      · left; simp
    · rename_i h3
      right; left
      exact ⟨u, _, rfl, h3, rfl⟩

theorem WInv.add {H : Bytes → Bytes} {P : CoinOutput → Prop} {w : Wallets} (hw : WInv H P w) {o : CoinOutput} (ho : P o) (c s : Bool) :
    WInv H P (w.outputAdd H o c s).1 := by
  rcases walletsAdd_cases H w o c s with ⟨h, _⟩ | ⟨u, a, hu, h3, h⟩ | ⟨u, m, hu, h3, hm, h⟩
  · rw [h]; exact hw
  · rw [h]
    refine ⟨outputAdd_inv H (hw.base.addr a) o c s, ?_, hw.multi, hw.multiP, hw.keys⟩
    intro co hco
    rcases outputAdd_counted hco with hco | rfl
    · exact hw.baseP co hco
    · exact ⟨ho, u, hu, h3⟩
  · rw [h]
    have hmi : BalInv m.base ∧ ∀ co ∈ counted m.base, P co ∧ ∃ v, co.condition.unlockhash H = .ok v ∧ v.type = 3 ∧ v.str H = u.str H := by
      rcases hm with hm | ⟨_, hm⟩
      · exact ⟨hw.multi _ hm, hw.multiP _ hm⟩
      · rw [hm]
        exact ⟨balInv_new, by simp [counted, OutMap.values]⟩
    refine ⟨hw.base, hw.baseP, ?_, ?_, MultiMap.nodup_put hw.keys⟩
    · intro p hp
      rcases MultiMap.mem_put hp with hp | rfl
      · exact hw.multi p hp.1
      · exact outputAdd_inv H hmi.1 o c s
    · intro p hp
      rcases MultiMap.mem_put hp with hp | rfl
      · exact hw.multiP p hp.1
      · intro co hco
        rcases outputAdd_counted hco with hco | rfl
        · exact hmi.2 co hco
        · exact ⟨ho, u, hu, h3, rfl⟩

theorem wInv_new (H : Bytes → Bytes) (P : CoinOutput → Prop) : WInv H P {} :=
  ⟨balInv_new, by simp [counted, OutMap.values], by simp, by simp, by simp⟩

theorem WInv.step {H : Bytes → Bytes} {P : CoinOutput → Prop} {w : Wallets} (hw : WInv H P w) {e : BalEvent}
    (he : ∀ o c s, e = .report o c s → P o) : WInv H P (walletsStep H w e) := by
  cases e with
  | report o c s => exact hw.add (he o c s rfl) c s
  | chain t h => exact ⟨hw.base.chain t h, hw.baseP, hw.multi, hw.multiP, hw.keys⟩

theorem WInv.run {H : Bytes → Bytes} {P : CoinOutput → Prop} (es : List BalEvent) {w : Wallets} (hw : WInv H P w)
    (he : ∀ o c s, .report o c s ∈ es → P o) : WInv H P (es.foldl (walletsStep H) w) := by
  induction es generalizing w with
  | nil => exact hw
  | cons e es ih =>
    rw [List.foldl_cons]
    exact ih (hw.step fun o c s h => he o c s (h ▸ List.mem_cons_self)) fun o c s h => he o c s (List.mem_cons_of_mem _ h)

/-- An output with the address `u` is known to be spent. -/
def SpentIn (H : Bytes → Bytes) (w : Wallets) (u : UnlockHash) (k : Hash) : Prop :=
  if u.type = 3 then ∃ m, (u.str H, m) ∈ w.wallets ∧ KnownSpent m.base k else KnownSpent w.base k

theorem nodup_keys_unique {m : MultiMap} (hn : (m.map (·.1)).Nodup) {a : Str} {v v' : MultiBalance} (h : (a, v) ∈ m) (h' : (a, v') ∈ m) : v = v' := by
  induction m with
  | nil => simp at h
  | cons p m ih =>
    rw [List.map_cons, List.nodup_cons] at hn
    rcases List.mem_cons.1 h with h1 | h1 <;> rcases List.mem_cons.1 h' with h2 | h2
    · rw [← h1] at h2; exact (Prod.mk.inj h2).2.symm
    · exact absurd (List.mem_map.2 ⟨_, h2, rfl⟩) (by rw [← h1] at hn; exact hn.1)
    · exact absurd (List.mem_map.2 ⟨_, h1, rfl⟩) (by rw [← h2] at hn; exact hn.1)
    · exact ih hn.2 h1 h2

theorem SpentIn.add {H : Bytes → Bytes} {P : CoinOutput → Prop} {w : Wallets} (hw : WInv H P w) {u : UnlockHash} {k : Hash}
    (h : SpentIn H w u k) (o : CoinOutput) (c s : Bool) : SpentIn H (w.outputAdd H o c s).1 u k := by
  unfold SpentIn at *
  rcases walletsAdd_cases H w o c s with ⟨e, _⟩ | ⟨v, a, hv, h3, e⟩ | ⟨v, m, hv, h3, hm, e⟩
  · rw [e]; exact h
  · rw [e]
    split
    · rename_i h3; rw [if_pos h3] at h; exact h
    · rename_i h3; rw [if_neg h3] at h
      exact outputAdd_spent_mono H (b := { w.base with addresses := a }) h o c s
  · rw [e]
    split
    · rename_i hu3
      rw [if_pos hu3] at h
      obtain ⟨m', hm', hk⟩ := h
      by_cases hs : u.str H = v.str H
      · rcases hm with hm | ⟨hm, _⟩
        · have : m' = m := nodup_keys_unique hw.keys hm' (hs ▸ hm)
          subst this
          exact ⟨_, by rw [hs]; exact MultiMap.put_mem _ _ _, outputAdd_spent_mono H hk o c s⟩
        · exact absurd (List.mem_map.2 ⟨_, hm', hs⟩) hm
      · exact ⟨m', MultiMap.put_other hm' hs, hk⟩
    · rename_i hu3; rw [if_neg hu3] at h; exact h

theorem SpentIn.step {H : Bytes → Bytes} {P : CoinOutput → Prop} {w : Wallets} (hw : WInv H P w) {u : UnlockHash} {k : Hash}
    (h : SpentIn H w u k) (e : BalEvent) : SpentIn H (walletsStep H w e) u k := by
  cases e with
  | report o c s => exact h.add hw o c s
  | chain t x => exact h

theorem SpentIn.run {H : Bytes → Bytes} {P : CoinOutput → Prop} (es : List BalEvent) {w : Wallets} (hw : WInv H P w)
    (he : ∀ o c s, .report o c s ∈ es → P o) {u : UnlockHash} {k : Hash} (h : SpentIn H w u k) : SpentIn H (es.foldl (walletsStep H) w) u k := by
  induction es generalizing w with
  | nil => exact h
  | cons e es ih =>
    rw [List.foldl_cons]
    exact ih (hw.step fun o c s h => he o c s (h ▸ List.mem_cons_self)) (fun o c s h => he o c s (List.mem_cons_of_mem _ h)) (h.step hw e)

theorem spentIn_report {H : Bytes → Bytes} {w : Wallets} {o : CoinOutput} {c : Bool} (hret : (w.outputAdd H o c true).2 = none) :
    ∃ u, o.condition.unlockhash H = .ok u ∧ SpentIn H (w.outputAdd H o c true).1 u o.id := by
  rcases walletsAdd_cases H w o c true with ⟨_, e⟩ | ⟨u, a, hu, h3, e⟩ | ⟨u, m, hu, h3, hm, e⟩
  · exact absurd hret e
  · refine ⟨u, hu, ?_⟩
    rw [SpentIn, if_neg h3, e]
    exact outputAdd_spent H _ o c
  · refine ⟨u, hu, ?_⟩
    rw [SpentIn, if_pos h3, e]
    exact ⟨_, MultiMap.put_mem _ _ _, outputAdd_spent H _ o c⟩

end TF
