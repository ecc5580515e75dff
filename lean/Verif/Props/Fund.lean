import Verif.Lemmas.Fund
import Verif.Props.Balance
/-! # C51–C54: funding -/
namespace TF.Props
open TF Spec

/-! ## Requested addresses -/

theorem splitSource_mem {l p m : List UnlockHash} (h : splitSource l = .ok (p, m)) :
    (∀ u, u ∈ p ↔ u ∈ l ∧ u.type = 1) ∧ (∀ u, u ∈ m ↔ u ∈ l ∧ u.type = 3) ∧ ∀ u ∈ l, u.type = 1 ∨ u.type = 3 := by
  induction l generalizing p m with
  | nil => cases h; simp
  | cons v l ih =>
    unfold splitSource at h
    simp only [bind, Except.bind, throw, throwThe, MonadExceptOf.throw] at h
    split at h
    · cases h
    · rename_i hv
      split at h
      · cases h
      · rename_i r hr
        obtain ⟨p', m'⟩ := r
        obtain ⟨h1, h2, h3⟩ := ih hr
        have hv : v.type = 1 ∨ v.type = 3 := by
          by_cases a : v.type = 1
          · exact .inl a
          · by_cases b : v.type = 3
            · exact .inr b
            · exact absurd ⟨a, b⟩ hv
        have hne : (1 : UInt8) ≠ 3 := by decide
        simp only [pure, Except.pure, Except.ok.injEq] at h
        refine ⟨?_, ?_, ?_⟩
        · intro u
          split at h
          · rename_i h3'
            cases h
            rw [h1, List.mem_cons]
            constructor
            · rintro ⟨a, b⟩; exact ⟨.inr a, b⟩
            · rintro ⟨rfl | a, b⟩
              · rw [b] at h3'; exact absurd h3' hne
              · exact ⟨a, b⟩
          · rename_i h3'
            cases h
            rw [List.mem_cons, List.mem_cons, h1]
            constructor
            · rintro (rfl | a)
              · exact ⟨.inl rfl, hv.resolve_right h3'⟩
              · exact ⟨.inr a.1, a.2⟩
            · rintro ⟨rfl | a, b⟩
              · exact .inl rfl
              · exact .inr ⟨a, b⟩
        · intro u
          split at h
          · rename_i h3'
            cases h
            rw [List.mem_cons, List.mem_cons, h2]
            constructor
            · rintro (rfl | a)
              · exact ⟨.inl rfl, h3'⟩
              · exact ⟨.inr a.1, a.2⟩
            · rintro ⟨rfl | a, b⟩
              · exact .inl rfl
              · exact .inr ⟨a, b⟩
          · rename_i h3'
            cases h
            rw [h2, List.mem_cons]
            constructor
            · rintro ⟨a, b⟩; exact ⟨.inr a, b⟩
            · rintro ⟨rfl | a, b⟩
              · exact absurd b h3'
              · exact ⟨a, b⟩
        · intro u hu
          rcases List.mem_cons.1 hu with rfl | hu
          · exact hv
          · exact h3 u hu

theorem resolve_iff {H : Bytes → Bytes} {s : SourceArg} {u : UnlockHash} : s.resolve H = .ok u ↔ ArgNames H s u := by
  cases s with
  | str s => rfl
  | uh v => simp [SourceArg.resolve, ArgNames, eq_comm]
  | other => simp [SourceArg.resolve, ArgNames]

theorem mapM_ok_mem {α β : Type} {f : α → Res β} {l : List α} {r : List β} (h : l.mapM f = .ok r) : ∀ b, b ∈ r ↔ ∃ a ∈ l, f a = .ok b := by
  induction l generalizing r with
  | nil =>
    simp only [List.mapM_nil, pure, Except.pure, Except.ok.injEq] at h
    subst h; simp
  | cons a l ih =>
    rw [List.mapM_cons] at h
    simp only [bind, Except.bind] at h
    split at h
    · cases h
    · rename_i b hb
      split at h
      · cases h
      · rename_i bs hbs
        simp only [pure, Except.pure, Except.ok.injEq] at h
        subst h
        intro x
        rw [List.mem_cons, ih hbs]
        constructor
        · rintro (rfl | ⟨y, hy, e⟩)
          · exact ⟨a, List.mem_cons_self, hb⟩
          · exact ⟨y, List.mem_cons_of_mem _ hy, e⟩
        · rintro ⟨y, hy, e⟩
          rcases List.mem_cons.1 hy with rfl | hy
          · rw [hb] at e; cases e; exact .inl rfl
          · exact .inr ⟨y, hy, e⟩

/-- The addresses `fund` works with are the requested ones. -/
theorem sources_asked {H : Bytes → Bytes} {w : Wallets} {src : Source} {addrs ms : List UnlockHash} {rf : Option Condition}
    (h : w.sources H src = .ok (addrs, ms, rf)) :
    (∀ u ∈ addrs, Asked H src u) ∧ (∀ u, u ∈ ms ↔ src ≠ .none ∧ Asked H src u ∧ u.type = 3) ∧
    (src ≠ .none → ∀ u, Asked H src u → u.type ≠ 3 → u ∈ addrs) ∧
    (src = .none → ∀ co ∈ spendable w.base, ∀ u, co.condition.unlockhash H = .ok u → u ∈ addrs) := by
  have key : ∀ (us : List UnlockHash) (src : Source), src ≠ .none → (∀ u, u ∈ us ↔ Asked H src u) → splitSource us = .ok (addrs, ms) →
      (∀ u ∈ addrs, Asked H src u) ∧ (∀ u, u ∈ ms ↔ src ≠ .none ∧ Asked H src u ∧ u.type = 3) ∧
      (src ≠ .none → ∀ u, Asked H src u → u.type ≠ 3 → u ∈ addrs) ∧
      (src = .none → ∀ co ∈ spendable w.base, ∀ u, co.condition.unlockhash H = .ok u → u ∈ addrs) := by
    intro us src hsrc hus hsp
    obtain ⟨h1, h2, h3⟩ := splitSource_mem hsp
    refine ⟨fun u hu => (hus u).1 ((h1 u).1 hu).1, fun u => ?_, fun _ u hu ht => ?_, fun hn => absurd hn hsrc⟩
    · rw [h2, hus]
      exact ⟨fun h => ⟨hsrc, h⟩, fun h => h.2⟩
    · have := (hus u).2 hu
      exact (h1 u).2 ⟨this, (h3 u this).resolve_right ht⟩
  cases src with
  | none =>
    unfold Wallets.sources at h
    simp only [bind, Except.bind] at h
    split at h
    · cases h
    · rename_i a ha
      split at h
      · cases h
      · rename_i b hb
        simp only [pure, Except.pure, Except.ok.injEq, Prod.mk.injEq] at h
        obtain ⟨rfl, rfl, rfl⟩ := h
        refine ⟨fun u _ => trivial, fun u => ?_, fun hn => absurd rfl hn, fun _ co hco u hu => ?_⟩
        · simp
        · rw [List.mem_append, mapM_ok_mem ha, mapM_ok_mem hb]
          rcases List.mem_append.1 hco with hco | hco
          · exact .inl ⟨co, hco, hu⟩
          · exact .inr ⟨co, hco, hu⟩
  | one s =>
    unfold Wallets.sources at h
    simp only [bind, Except.bind] at h
    split at h
    · cases h
    · rename_i v hv
      split at h
      · cases h
      · rename_i pm hpm
        obtain ⟨p, m⟩ := pm
        simp only at h
        split at h
        · cases h
        · simp only [pure, Except.pure, Except.ok.injEq, Prod.mk.injEq] at h
          obtain ⟨rfl, rfl, rfl⟩ := h
          refine key [v] _ (by simp) ?_ hpm
          intro u
          rw [List.mem_singleton, Asked, ← resolve_iff, hv]
          simp [eq_comm]
  | list l =>
    unfold Wallets.sources at h
    simp only [bind, Except.bind] at h
    split at h
    · cases h
    · rename_i us hus
      split at h
      · cases h
      · rename_i pm hpm
        obtain ⟨p, m⟩ := pm
        have hpm' : (p, m) = (addrs, ms) := by
          simp only at h
          split at h
          · split at h
            · cases h
            · simp only [pure, Except.pure, Except.ok.injEq, Prod.mk.injEq] at h
              rw [h.1, h.2.1]
          · simp [throw, throwThe, MonadExceptOf.throw] at h
          · simp only [pure, Except.pure, Except.ok.injEq, Prod.mk.injEq] at h
            rw [h.1, h.2.1]
        cases hpm'
        refine key us _ (by simp) ?_ hpm
        intro u
        rw [mapM_ok_mem hus]
        simp only [Asked, resolve_iff]

theorem addrIn_iff {H : Bytes → Bytes} {addrs : List UnlockHash} {co : CoinOutput} :
    addrIn H addrs co = true ↔ ∃ u ∈ addrs, co.condition.unlockhash H = .ok u := by
  unfold addrIn
  cases h : co.condition.unlockhash H with
  | error e => simp
  | ok u => simp [eq_comm]

theorem walletIn_iff {H : Bytes → Bytes} {addrs : List UnlockHash} {p : Str × MultiBalance} :
    walletIn H addrs p = true ↔ ∃ u ∈ addrs, Names H p.1 u := by
  unfold walletIn Names
  cases h : UnlockHash.fromJson H (.str p.1) with
  | error e => simp
  | ok u => simp [eq_comm]

theorem mem_elig {H : Bytes → Bytes} {w : Wallets} {addrs ms : List UnlockHash} {co : CoinOutput} :
    co ∈ elig H w addrs ms ↔ (co ∈ spendable w.base ∧ ∃ u ∈ addrs, co.condition.unlockhash H = .ok u) ∨
      ∃ p ∈ w.wallets, (∃ u ∈ ms, Names H p.1 u) ∧ co ∈ spendable p.2.base := by
  unfold elig personalElig multiElig
  rw [List.mem_append, List.mem_filter, addrIn_iff, List.mem_flatMap]
  simp only [List.mem_filter, walletIn_iff, and_assoc]

theorem elig_eligible {H : Bytes → Bytes} {w : Wallets} {src : Source} {addrs ms : List UnlockHash} {rf : Option Condition}
    (h : w.sources H src = .ok (addrs, ms, rf)) {co : CoinOutput} (hco : co ∈ elig H w addrs ms) : Eligible H w src co := by
  obtain ⟨h1, h2, _, _⟩ := sources_asked h
  rcases mem_elig.1 hco with ⟨ho, u, hu, ha⟩ | ⟨p, hp, ⟨u, hu, hn⟩, ho⟩
  · exact .personal u ho ha (h1 u hu)
  · obtain ⟨g1, g2, _⟩ := (h2 u).1 hu
    exact .multi p.1 p.2 u hp ho hn g1 g2

theorem eligible_elig {H : Bytes → Bytes} {w : Wallets} {src : Source} {addrs ms : List UnlockHash} {rf : Option Condition}
    (hw : WellFiled H w) (h : w.sources H src = .ok (addrs, ms, rf)) {co : CoinOutput} (hco : Eligible H w src co) : co ∈ elig H w addrs ms := by
  obtain ⟨_, h2, h3, h4⟩ := sources_asked h
  rw [mem_elig]
  cases hco with
  | personal u ho ha hask =>
    left
    refine ⟨ho, u, ?_, ha⟩
    obtain ⟨v, hv, hv3⟩ := hw.personal co ho
    rw [ha] at hv; cases hv
    by_cases hs : src = .none
    · exact h4 hs co ho u ha
    · exact h3 hs u hask hv3
  | multi name m u hmem ho hn hs hask =>
    right
    refine ⟨(name, m), hmem, ⟨u, ?_, hn⟩, ho⟩
    obtain ⟨v, hv, hv3⟩ := hw.multi _ hmem
    unfold Names at hv hn
    rw [hn] at hv; cases hv
    exact (h2 u).2 ⟨hs, hask, hv3⟩

theorem elig_sublist (H : Bytes → Bytes) (w : Wallets) (addrs ms : List UnlockHash) : (elig H w addrs ms).Sublist (walletsSpendable w) := by
  unfold elig personalElig multiElig walletsSpendable
  refine List.Sublist.append List.filter_sublist ?_
  have : ∀ (l l' : MultiMap), l.Sublist l' → (l.flatMap fun p => spendable p.2.base).Sublist (l'.flatMap fun p => spendable p.2.base) := by
    intro l l' h
    induction h with
    | slnil => exact .refl _
    | cons a _ ih => rw [List.flatMap_cons]; exact ih.trans (List.sublist_append_right _ _)
    | cons_cons a _ ih => rw [List.flatMap_cons, List.flatMap_cons]; exact (List.Sublist.refl _).append ih
  exact this _ _ List.filter_sublist

theorem ofOutputs_spec {outs : List CoinOutput} {ins : List CoinInput} (h : outs.mapM CoinInput.ofOutput = .ok ins) :
    ins.map CoinInput.parentOutput = outs ∧ ins.map (·.parentId) = outs.map (·.id) := by
  induction outs generalizing ins with
  | nil =>
    simp only [List.mapM_nil, pure, Except.pure, Except.ok.injEq] at h
    subst h; simp
  | cons a l ih =>
    rw [List.mapM_cons] at h
    simp only [bind, Except.bind] at h
    split at h
    · cases h
    · rename_i b hb
      split at h
      · cases h
      · rename_i bs hbs
        simp only [pure, Except.pure, Except.ok.injEq] at h
        subst h
        obtain ⟨h1, h2⟩ := ih hbs
        have : b.parentOutput = a ∧ b.parentId = a.id := by
          unfold CoinInput.ofOutput at hb
          simp only [bind, Except.bind] at hb
          split at hb
          · cases hb
          · cases hb; exact ⟨rfl, rfl⟩
        simp [h1, h2, this]

/-! ## C51 -/

/-- **C51** (what holds). When all outputs the wallets offer stay below 10^19 TFT together, the inputs returned are worth exactly the
requested amount plus the remainder. -/
theorem C51_funding_conserves_partial (H : Bytes → Bytes) (w : Wallets) (a : Currency) (src : Source) (ins : List CoinInput) (rem : Currency)
    (refund : Option Condition) (ha : GoodCurrency a) (hs : SaneOutputs (walletsSpendable w)) (h : w.fund H a src = .ok (ins, rem, refund)) :
    inputsTotal ins = amount a + amount rem := by
  obtain ⟨addrs, ms, outs, c, h1, h2, h3, h4, h5, h6⟩ := fund_ok h
  have hse := SaneOutputs.sublist hs (elig_sublist H w addrs ms)
  obtain ⟨g1, g2, g3⟩ := h6 ha hse
  have hlt : amount c < 10 ^ 28 := by
    rw [g2]
    obtain ⟨l, hp, hsub⟩ := h5
    rw [← total_perm hp]
    exact Nat.lt_of_le_of_lt (total_sublist hsub) hse.2
  obtain ⟨r, e1, _, e3⟩ := sub_amount g1 ha hlt (by omega)
  rw [e1] at h3; cases h3
  unfold inputsTotal
  rw [(ofOutputs_spec h2).1, e3]
  omega

/-- Three personal coins of 5, 7 and 1 TFT. -/
def coinC : CoinOutput := ⟨⟨some ⟨false, 1, 0⟩⟩, .unlockHash (addrOf key1), ⟨List.replicate 32 9⟩⟩
/-- A wallet with confirmed 5 and 7 TFT, unconfirmed 1 TFT. -/
def wal1 : Wallets := walletsRun toyHash [.chain 1000 1000, .report coinB true false, .report coinA true false, .report coinC false false]

example : ∃ ins, wal1.fund toyHash ⟨some ⟨false, 125, -1⟩⟩ .none = .ok (ins, ⟨some ⟨false, 5, -1⟩⟩, none) ∧ ins.map (·.parentId) = [coinA.id, coinB.id, coinC.id] := by
  refine ⟨(match wal1.fund toyHash ⟨some ⟨false, 125, -1⟩⟩ .none with
    | .ok r => r.1
    | .error _ => []), by decide +kernel, by decide +kernel⟩
example : SaneOutputs (walletsSpendable wal1) := by
  constructor
  · intro co hco
    rw [show walletsSpendable wal1 = [coinB, coinA, coinC] by decide +kernel] at hco
    simp only [List.mem_cons, List.not_mem_nil, or_false] at hco
    rcases hco with rfl | rfl | rfl <;> exact ⟨rfl, by decide⟩
  · decide +kernel

/-- An output of 10^28 - 1 smallest units, and one of 7 smallest units. -/
def coinBig : CoinOutput := ⟨⟨some ⟨false, 10 ^ 28 - 1, -9⟩⟩, .unlockHash (addrOf key1), ⟨List.replicate 32 7⟩⟩
@[inherit_doc coinBig] def coinTiny : CoinOutput := ⟨⟨some ⟨false, 7, -9⟩⟩, .unlockHash (addrOf key1), ⟨List.replicate 32 8⟩⟩

/-- **C51** (finding). Above 28 digits the decimal sum is rounded: funding 10^28 units from 10^28 - 1 and 7 units reports a remainder of 10
units where there are 6. -/
theorem C51_funding_conserves_false :
    ∃ ins rem, (walletsRun toyHash [.report coinBig true false, .report coinTiny true false]).fund toyHash ⟨some ⟨false, 10 ^ 28, -9⟩⟩ .none = .ok (ins, rem, none) ∧
      GoodCurrency ⟨some ⟨false, 10 ^ 28, -9⟩⟩ ∧ (∀ co ∈ [coinBig, coinTiny], GoodCurrency co.value) ∧
      inputsTotal ins = 10 ^ 28 + 6 ∧ amount rem = 10 := by
  refine ⟨(match (walletsRun toyHash [.report coinBig true false, .report coinTiny true false]).fund toyHash ⟨some ⟨false, 10 ^ 28, -9⟩⟩ .none with
    | .ok r => r.1
    | .error _ => []), (match (walletsRun toyHash [.report coinBig true false, .report coinTiny true false]).fund toyHash ⟨some ⟨false, 10 ^ 28, -9⟩⟩ .none with
    | .ok r => r.2.1
    | .error _ => ⟨none⟩), by decide +kernel, ⟨rfl, by decide⟩, ?_, by decide +kernel, by decide +kernel⟩
  intro co hco
  simp only [List.mem_cons, List.not_mem_nil, or_false] at hco
  rcases hco with rfl | rfl <;> exact ⟨rfl, by decide⟩

/-! ## C52 -/

/-- **C52**, the limit: never more than 99 inputs. -/
theorem C52_input_limit (H : Bytes → Bytes) (w : Wallets) (a : Currency) (src : Source) (ins : List CoinInput) (rem : Currency)
    (refund : Option Condition) (h : w.fund H a src = .ok (ins, rem, refund)) : ins.length ≤ 99 := by
  obtain ⟨addrs, ms, outs, c, h1, h2, h3, h4, h5, h6⟩ := fund_ok h
  have := congrArg List.length (ofOutputs_spec h2).2
  simp only [List.length_map] at this
  rw [this]; exact h4

/-- **C52**, no output twice (what holds): if the wallets offer no output twice, no two inputs spend the same output. -/
theorem C52_distinct_partial (H : Bytes → Bytes) (w : Wallets) (a : Currency) (src : Source) (ins : List CoinInput) (rem : Currency)
    (refund : Option Condition) (hn : ((walletsSpendable w).map (·.id)).Nodup) (h : w.fund H a src = .ok (ins, rem, refund)) :
    (ins.map (·.parentId)).Nodup := by
  obtain ⟨addrs, ms, outs, c, h1, h2, h3, h4, h5, h6⟩ := fund_ok h
  rw [(ofOutputs_spec h2).2]
  obtain ⟨l, hp, hsub⟩ := h5
  have : (l.map (·.id)).Nodup := ((hsub.trans (elig_sublist H w addrs ms)).map _).nodup hn
  exact (hp.map _).nodup_iff.1 this

example : ((walletsSpendable wal1).map (·.id)).Nodup := by decide +kernel

/-- **C52** (finding). An output counted twice (see C49) is spent twice by one call. -/
theorem C52_distinct_false :
    ∃ ins rem, (walletsRun toyHash [.report coinA true false, .report coinA false false]).fund toyHash ⟨some ⟨false, 8, 0⟩⟩ .none = .ok (ins, rem, none) ∧
      ins.map (·.parentId) = [coinA.id, coinA.id] := by
  refine ⟨(match (walletsRun toyHash [.report coinA true false, .report coinA false false]).fund toyHash ⟨some ⟨false, 8, 0⟩⟩ .none with
    | .ok r => r.1
    | .error _ => []), ⟨some ⟨false, 2, 0⟩⟩, by decide +kernel, by decide +kernel⟩

/-! ## C53 -/

/-- **C53** (what holds). Every input spends an output that the wallets offer under a requested address; it carries that output. -/
theorem C53_eligible (H : Bytes → Bytes) (w : Wallets) (a : Currency) (src : Source) (ins : List CoinInput) (rem : Currency)
    (refund : Option Condition) (h : w.fund H a src = .ok (ins, rem, refund)) (i : CoinInput) (hi : i ∈ ins) :
    ∃ co, Eligible H w src co ∧ i.parentId = co.id ∧ i.parent = some co := by
  obtain ⟨addrs, ms, outs, c, h1, h2, h3, h4, h5, h6⟩ := fund_ok h
  obtain ⟨co, hco, e⟩ := (mapM_ok_mem h2 i).1 hi
  refine ⟨co, elig_eligible h1 (h5.subset hco), ?_⟩
  unfold CoinInput.ofOutput at e
  simp only [bind, Except.bind] at e
  split at e
  · cases e
  · cases e; exact ⟨rfl, rfl⟩

/-- **C53**, locked outputs (what holds). An input from the personal wallet is not locked when the wallet knows the chain; an input from a
multi-signature wallet is not locked when that wallet's own balance knows it. -/
theorem C53_not_locked_partial (H : Bytes → Bytes) (w : Wallets) (a : Currency) (src : Source) (ins : List CoinInput) (rem : Currency)
    (refund : Option Condition) (h : w.fund H a src = .ok (ins, rem, refund)) (i : CoinInput) (hi : i ∈ ins) :
    ∃ co b, i.parent = some co ∧ (b = w.base ∨ ∃ p ∈ w.wallets, b = p.2.base) ∧ co ∈ counted b ∧
      (b.time > 0 → b.height > 0 → lockedCheck co.condition.lock b.height b.time = false) := by
  obtain ⟨co, he, _, hp⟩ := C53_eligible H w a src ins rem refund h i hi
  have key : ∀ b : Balance, co ∈ spendable b → co ∈ counted b ∧ (b.time > 0 → b.height > 0 → lockedCheck co.condition.lock b.height b.time = false) := by
    intro b hb
    refine ⟨(spendable_sub b).subset hb, fun ht hh => ?_⟩
    have hk : b.knowsChain = true := by simp [Balance.knowsChain, ht, hh]
    unfold spendable Balance.available Balance.unconfAvailable at hb
    rw [if_pos hk, if_pos hk, ← List.filter_append, List.mem_filter] at hb
    simpa [Balance.isLocked] using hb.2
  cases he with
  | personal u ho _ _ => exact ⟨co, w.base, hp, .inl rfl, key _ ho⟩
  | multi name m u hm ho _ _ _ => exact ⟨co, m.base, hp, .inr ⟨_, hm, rfl⟩, key _ ho⟩

/-- **C53**, spent outputs. After any history of reports (reports of one id agree), an output reported spent by a call that returned is not
among the inputs of any funding. -/
theorem C53_not_spent (H : Bytes → Bytes) (before after : List BalEvent) (o : CoinOutput) (c : Bool)
    (hret : ((walletsRun H before).outputAdd H o c true).2 = none)
    (hsame : ∀ o' c' s', .report o' c' s' ∈ before ++ after → o'.id = o.id → o' = o)
    (a : Currency) (src : Source) (ins : List CoinInput) (rem : Currency) (refund : Option Condition)
    (h : (walletsRun H (before ++ .report o c true :: after)).fund H a src = .ok (ins, rem, refund)) : ∀ i ∈ ins, i.parentId ≠ o.id := by
  intro i hi
  obtain ⟨co, he, hid, _⟩ := C53_eligible H _ a src ins rem refund h i hi
  rw [hid]
  apply C48_wallets_spent_never_spendable H before after o c hret hsame
  unfold walletsSpendable
  cases he with
  | personal u ho _ _ => exact List.mem_append_left _ ho
  | multi name m u hm ho _ _ _ => exact List.mem_append_right _ (List.mem_flatMap.2 ⟨_, hm, ho⟩)

example : ∃ ins rem, (walletsRun toyHash ([.report coinA true false, .report coinB true false] ++ .report coinA false true :: [.report coinC true false])).fund
    toyHash ⟨some ⟨false, 8, 0⟩⟩ .none = .ok (ins, rem, none) ∧ ins.map (·.parentId) = [coinC.id, coinB.id] := by
  refine ⟨(match (walletsRun toyHash ([.report coinA true false, .report coinB true false] ++ .report coinA false true :: [.report coinC true false])).fund
    toyHash ⟨some ⟨false, 8, 0⟩⟩ .none with
    | .ok r => r.1
    | .error _ => []), ⟨some ⟨false, 0, 0⟩⟩, by decide +kernel, by decide +kernel⟩

/-- The address of `coinM` and `coinML`. -/
def msAddr : UnlockHash := match coinM.condition.unlockhash toyHash with
  | .ok u => u
  | .error _ => .default

/-- **C53** (finding). The balances of multi-signature wallets that `output_add` creates never learn the state of the chain: at height 10
an output locked until block 100 is used. -/
theorem C53_not_locked_false :
    ∃ ins rem rf, (walletsRun toyHash [.chain 1000 10, .report coinM true false, .report coinML true false]).fund toyHash ⟨some ⟨false, 4, 0⟩⟩ (.one (.uh msAddr))
      = .ok (ins, rem, rf) ∧ ins.map (·.parentId) = [coinML.id] ∧
      (walletsRun toyHash [.chain 1000 10, .report coinM true false, .report coinML true false]).base.height = 10 ∧
      lockedCheck coinML.condition.lock 10 1000 = true := by
  refine ⟨(match (walletsRun toyHash [.chain 1000 10, .report coinM true false, .report coinML true false]).fund toyHash ⟨some ⟨false, 4, 0⟩⟩ (.one (.uh msAddr)) with
    | .ok r => r.1
    | .error _ => []), ⟨some ⟨false, 0, 0⟩⟩, (match (walletsRun toyHash [.chain 1000 10, .report coinM true false, .report coinML true false]).fund toyHash ⟨some ⟨false, 4, 0⟩⟩ (.one (.uh msAddr)) with
    | .ok r => r.2.2
    | .error _ => none), by decide +kernel, by decide +kernel, by decide +kernel, by decide +kernel⟩

/-! ## C54 -/

theorem merkle_length {H : Bytes → Bytes} (hH : Digest32 H) (l : List Bytes) : (merkle H l).length = 32 := by
  unfold merkle
  split
  · exact hH _
  · split <;> exact hH _

/-- After every history of reports a multi-signature wallet is filed under the text of its address. -/
theorem walletNames_run (H : Bytes → Bytes) (hH : Digest32 H) (es : List BalEvent) :
    ∀ p ∈ (walletsRun H es).wallets, ∃ u, p.1 = u.str H ∧ Names H p.1 u ∧ u.type = 3 := by
  have addr : ∀ (c : Condition) (u : UnlockHash) owners n, c.unwrap = .multiSig owners n → c.unlockhash H = .ok u → Names H (u.str H) u ∧ u.type = 3 := by
    intro c u owners n hc hu
    have hu' : (Condition.multiSig owners n).unlockhash H = .ok u := by
      cases c with
      | lockTime l c' =>
        unfold Condition.unwrap at hc
        subst hc
        exact hu
      | multiSig o' n' => cases hc; exact hu
      | nil => cases hc
      | unlockHash v => cases hc
      | atomicSwap a b c d => cases hc
    unfold Condition.unlockhash at hu'
    simp only [bind, Except.bind] at hu'
    split at hu'
    · cases hu'
    · rename_i leaves hl
      have hne : leaves ≠ [] := by
        unfold multiSigLeaves at hl
        simp only [bind, Except.bind] at hl
        repeat' split at hl
        all_goals first | (cases hl; done) | (cases hl; simp)
      rw [C07_merkle_root H leaves hne] at hu'
      cases hu'
      refine ⟨(C22_address_roundtrip H hH _ (.inl ⟨by simp, ?_⟩)).2, rfl⟩
      exact merkle_length hH leaves
  have key : ∀ (es : List BalEvent) (w : Wallets), (∀ p ∈ w.wallets, ∃ u, p.1 = u.str H ∧ Names H p.1 u ∧ u.type = 3) →
      ∀ p ∈ (es.foldl (walletsStep H) w).wallets, ∃ u, p.1 = u.str H ∧ Names H p.1 u ∧ u.type = 3 := by
    intro es
    induction es with
    | nil => intro w h; exact h
    | cons e es ih =>
      intro w h
      rw [List.foldl_cons]
      apply ih
      cases e with
      | chain t x => exact h
      | report o c s =>
        simp only [walletsStep]
        unfold Wallets.outputAdd
        cases hu : o.condition.unlockhash H with
        | error e => exact h
        | ok u =>
          simp only
          split
          · unfold Wallets.multiOutputAdd
            split
            · rename_i owners n hun
              split
              · exact h
              · intro p hp
                rcases MultiMap.mem_put hp with hp | rfl
                · exact h p hp.1
                · exact ⟨u, rfl, addr _ u owners n hun hu⟩
            · exact h
          · exact h
  exact key es {} (by simp)

/-- After every history of reports the outputs are filed as `WellFiled` says. -/
theorem wellFiled_run (H : Bytes → Bytes) (hH : Digest32 H) (es : List BalEvent) : WellFiled H (walletsRun H es) := by
  have hw : WInv H (fun _ => True) (walletsRun H es) := (wInv_new H _).run es fun _ _ _ _ => trivial
  exact ⟨fun co hco => (hw.baseP co ((spendable_sub _).subset hco)).2, fun p hp => by
    obtain ⟨u, -, h⟩ := walletNames_run H hH es p hp
    exact ⟨u, h⟩⟩

/-- **C54** (what holds, personal sources). If `fund` raises `InsufficientFunds` and no multi-signature address is requested, no at most 99
different eligible outputs reach the (positive) amount. -/
theorem C54_complete_personal_partial (H : Bytes → Bytes) (w : Wallets) (a : Currency) (src : Source) (hw : WellFiled H w)
    (hs : SaneOutputs (walletsSpendable w)) (ha : GoodCurrency a) (hpos : 0 < amount a)
    (hsrc : ∀ u, src ≠ .none → Asked H src u → u.type ≠ 3)
    (h : w.fund H a src = .error .insufficientFunds) (s : List CoinOutput) (hn : s.Nodup) (hl : s.length ≤ 99)
    (he : ∀ co ∈ s, Eligible H w src co) : total s < amount a := by
  obtain ⟨addrs, ms, rf, h1, h2, h3⟩ := fund_insufficient ha hpos (fun addrs ms _ _ => SaneOutputs.sublist hs (elig_sublist H w addrs ms)) h
  have hms : ms = [] := by
    rw [List.eq_nil_iff_forall_not_mem]
    intro u hu
    obtain ⟨g1, g2, g3⟩ := ((sources_asked h1).2.1 u).1 hu
    exact hsrc u g1 g2 g3
  exact h2 hms s (hn.subperm fun co hco => eligible_elig hw h1 (he co hco)) hl

/-- **C54** (what holds, any source). If the wallets offer at most 99 outputs altogether and `fund` raises `InsufficientFunds`, no different
eligible outputs reach the (positive) amount. -/
theorem C54_complete_small_partial (H : Bytes → Bytes) (w : Wallets) (a : Currency) (src : Source) (hw : WellFiled H w)
    (hs : SaneOutputs (walletsSpendable w)) (ha : GoodCurrency a) (hpos : 0 < amount a) (hsmall : (walletsSpendable w).length ≤ 99)
    (h : w.fund H a src = .error .insufficientFunds) (s : List CoinOutput) (hn : s.Nodup) (he : ∀ co ∈ s, Eligible H w src co) :
    total s < amount a := by
  obtain ⟨addrs, ms, rf, h1, h2, h3⟩ := fund_insufficient ha hpos (fun addrs ms _ _ => SaneOutputs.sublist hs (elig_sublist H w addrs ms)) h
  have h4 := h3 (Nat.le_trans (elig_sublist H w addrs ms).length_le hsmall)
  obtain ⟨l, hp, hsub⟩ := hn.subperm fun co hco => eligible_elig hw h1 (he co hco)
  rw [← total_perm hp]
  exact Nat.lt_of_le_of_lt (total_sublist hsub) h4

example : wal1.fund toyHash ⟨some ⟨false, 14, 0⟩⟩ .none = .error .insufficientFunds ∧
    wal1.fund toyHash ⟨some ⟨false, 6, 0⟩⟩ (.list [.uh msAddr, .uh (addrOf key2)]) = .error .insufficientFunds := by
  constructor <;> decide +kernel
example : WellFiled toyHash wal1 := wellFiled_run toyHash toyHash_digest _

/-- The `i`-th of many multi-signature outputs of 2 TFT. -/
def coinN (i : Nat) : CoinOutput := ⟨⟨some ⟨false, 2, 0⟩⟩, .multiSig [addrOf key1] 1, ⟨UInt8.ofNat i :: List.replicate 31 6⟩⟩
/-- Unconfirmed personal outputs of 50 and 1 TFT. -/
def coin50 : CoinOutput := ⟨⟨some ⟨false, 50, 0⟩⟩, .unlockHash (addrOf key1), ⟨List.replicate 32 5⟩⟩
/-- Address of `coinN`. -/
def nAddr : UnlockHash := match (coinN 0).condition.unlockhash toyHash with
  | .ok u => u
  | .error _ => .default
/-- A wallet with 50 and 1 unconfirmed TFT, and 99 times 2 TFT in a multi-signature wallet. -/
def wal2 : Wallets := walletsRun toyHash (.report coin50 false false :: .report coinC false false :: (List.range 99).map fun i => .report (coinN i) true false)

/-- **C54** (finding). With personal and multi-signature sources together the search misses solutions: 246 TFT are refused although
50 + 98 * 2 is enough, with 99 inputs. (Also, asking an empty wallet for nothing is refused.) -/
theorem C54_complete_false :
    wal2.fund toyHash ⟨some ⟨false, 246, 0⟩⟩ (.list [.uh (addrOf key1), .uh nAddr]) = .error .insufficientFunds ∧
    (∃ s : List CoinOutput, s.Nodup ∧ s.length = 99 ∧ total s = 246 * 10 ^ 9 ∧
      ∀ co ∈ s, Eligible toyHash wal2 (.list [.uh (addrOf key1), .uh nAddr]) co) ∧
    (walletsRun toyHash []).fund toyHash ⟨some ⟨false, 0, 0⟩⟩ .none = .error .insufficientFunds := by
  refine ⟨by decide +kernel, ⟨coin50 :: (List.range 98).map coinN, by decide +kernel, by decide +kernel, by decide +kernel, ?_⟩, by decide +kernel⟩
  have hm : ∃ m, wal2.wallets = [(nAddr.str toyHash, m)] ∧ ∀ i ∈ List.range 98, coinN i ∈ spendable m.base := by
    refine ⟨(match wal2.wallets with
      | [p] => p.2
      | _ => ⟨[], 0, {}⟩), by decide +kernel, by decide +kernel⟩
  obtain ⟨m, hm1, hm2⟩ := hm
  intro co hco
  rcases List.mem_cons.1 hco with rfl | hco
  · exact .personal (addrOf key1) (by decide +kernel) rfl ⟨.uh (addrOf key1), by simp, rfl⟩
  · obtain ⟨i, hi, rfl⟩ := List.mem_map.1 hco
    exact .multi (nAddr.str toyHash) m nAddr (by rw [hm1]; simp) (hm2 i hi) (by unfold Names; decide +kernel) (by simp) ⟨.uh nAddr, by simp, rfl⟩

end TF.Props
