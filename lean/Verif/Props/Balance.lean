import Verif.Lemmas.Balance
import Verif.Props.Fulfillments
/-! # C48, C49, C50: balances -/
namespace TF.Props
open TF Spec

/-! ## C48 -/

/-- **C48**. After any history, an output that was ever reported spent is neither available nor unconfirmed-available (nor locked:
it is not counted at all), whatever is reported before or after. -/
theorem C48_spent_never_spendable (H : Bytes → Bytes) (es : List BalEvent) (id : Hash) (h : ReportedSpent es id) :
    (∀ co ∈ spendable (balRun H es), co.id ≠ id) ∧ (∀ co ∈ counted (balRun H es), co.id ≠ id) := by
  have key : ∀ (es : List BalEvent) (b : Balance), BalInv b → (KnownSpent b id ∨ ReportedSpent es id) →
      BalInv (es.foldl (balStep H) b) ∧ KnownSpent (es.foldl (balStep H) b) id := by
    intro es
    induction es with
    | nil =>
      intro b hb h
      rcases h with h | ⟨o, c, h, _⟩
      · exact ⟨hb, h⟩
      · simp at h
    | cons e es ih =>
      intro b hb h
      rw [List.foldl_cons]
      apply ih _ (balStep_inv H hb e)
      rcases h with h | ⟨o, c, h, ho⟩
      · exact .inl (balStep_spent_mono H h e)
      · rcases List.mem_cons.1 h with h | h
        · subst h; subst ho
          exact .inl (outputAdd_spent H b o c)
        · exact .inr ⟨o, c, h, ho⟩
  obtain ⟨h1, h2⟩ := key es {} balInv_new (.inr h)
  exact ⟨fun co hco => h1.not_spendable h2 co ((spendable_sub _).subset hco), h1.not_spendable h2⟩

/-- An output of 5 TFT with id 1, 1, … -/
def coinA : CoinOutput := ⟨⟨some ⟨false, 5, 0⟩⟩, .unlockHash (addrOf key1), ⟨List.replicate 32 1⟩⟩
@[inherit_doc coinA] def coinB : CoinOutput := ⟨⟨some ⟨false, 7, 0⟩⟩, .unlockHash (addrOf key1), ⟨List.replicate 32 2⟩⟩

example : ReportedSpent [.report coinA true false, .report coinA false true, .report coinA true false] coinA.id :=
  ⟨coinA, false, by simp, rfl⟩
example : spendable (balRun toyHash [.report coinB true false, .report coinA true false, .report coinA false true, .report coinA true false])
    = [coinB] := by decide +kernel

/-- **C48** for a balance of several wallets. Reports that name the same id name the same output; then an output that was reported spent
(by a call that returned) is not offered by the personal wallet nor by any multi-signature wallet. -/
theorem C48_wallets_spent_never_spendable (H : Bytes → Bytes) (before after : List BalEvent) (o : CoinOutput) (c : Bool)
    (hret : ((walletsRun H before).outputAdd H o c true).2 = none)
    (hsame : ∀ o' c' s', .report o' c' s' ∈ before ++ after → o'.id = o.id → o' = o) :
    ∀ co ∈ walletsSpendable (walletsRun H (before ++ .report o c true :: after)), co.id ≠ o.id := by
  let P : CoinOutput → Prop := fun co => co.id = o.id → co = o
  have hP : ∀ o' c' s', .report o' c' s' ∈ before ++ after → P o' := hsame
  have w0 : WInv H P (walletsRun H before) := (wInv_new H P).run before fun o' c' s' h => hP o' c' s' (List.mem_append_left _ h)
  have w1 := w0.add (o := o) (fun _ => rfl) c true
  have ha : ∀ o' c' s', .report o' c' s' ∈ after → P o' := fun o' c' s' h => hP o' c' s' (List.mem_append_right _ h)
  have w2 := w1.run after ha
  obtain ⟨u, hu, hsp⟩ := spentIn_report hret
  have h2 := hsp.run after w1 ha
  have hrun : walletsRun H (before ++ .report o c true :: after) = after.foldl (walletsStep H) ((walletsRun H before).outputAdd H o c true).1 := by
    unfold walletsRun
    rw [List.foldl_append, List.foldl_cons]; rfl
  rw [hrun]
  generalize after.foldl (walletsStep H) ((walletsRun H before).outputAdd H o c true).1 = w at *
  intro co hco hid
  rw [walletsSpendable, List.mem_append, List.mem_flatMap] at hco
  unfold SpentIn at h2
  rcases hco with hco | ⟨p, hp, hco⟩
  · have hco := (spendable_sub _).subset hco
    obtain ⟨hPc, v, hv, h3⟩ := w2.baseP co hco
    have := hPc hid; subst this
    rw [hu] at hv; cases hv
    rw [if_neg h3] at h2
    exact w2.base.not_spendable h2 co hco rfl
  · have hco := (spendable_sub _).subset hco
    obtain ⟨hPc, v, hv, h3, hs⟩ := w2.multiP p hp co hco
    have := hPc hid; subst this
    rw [hu] at hv; cases hv
    rw [if_pos h3] at h2
    obtain ⟨m, hm, hk⟩ := h2
    have : p.2 = m := nodup_keys_unique w2.keys (a := u.str H) (by rw [hs]; exact hp) hm
    rw [← this] at hk
    exact (w2.multi p hp).not_spendable hk co hco rfl

/-- A multi-signature output, unlocked and locked until block 100. -/
def coinM : CoinOutput := ⟨⟨some ⟨false, 3, 0⟩⟩, .multiSig [addrOf key1, addrOf key2] 2, ⟨List.replicate 32 3⟩⟩
@[inherit_doc coinM] def coinML : CoinOutput := ⟨⟨some ⟨false, 4, 0⟩⟩, .lockTime 100 (.multiSig [addrOf key1, addrOf key2] 2), ⟨List.replicate 32 4⟩⟩

example : ((walletsRun toyHash [.report coinM true false, .report coinA true false]).outputAdd toyHash coinM false true).2 = none ∧
    walletsSpendable (walletsRun toyHash [.report coinM true false, .report coinA true false]) = [coinA, coinM] ∧
    walletsSpendable (walletsRun toyHash [.report coinM true false, .report coinA true false, .report coinM false true]) = [coinA] := by
  decide +kernel

/-! ## C49 -/

/-- **C49** (what holds). If no output is reported unconfirmed after it was reported confirmed, every output id is counted at most once, as
confirmed or as unconfirmed. -/
theorem C49_counted_once_partial (H : Bytes → Bytes) (es : List BalEvent) (h : ConfirmationsStay es) :
    ((counted (balRun H es)).map (·.id)).Nodup := by
  have key : ∀ (rest done : List BalEvent) (b : Balance), done ++ rest = es → BalInv b →
      (∀ k ∈ b.outputs.map (·.1), ∃ o, .report o true false ∈ done ∧ o.id = k) →
      (∀ k ∈ b.outputs.map (·.1), k ∉ b.unconf.map (·.1)) →
      BalInv (rest.foldl (balStep H) b) ∧
        ∀ k ∈ (rest.foldl (balStep H) b).outputs.map (·.1), k ∉ (rest.foldl (balStep H) b).unconf.map (·.1) := by
    intro rest
    induction rest with
    | nil => intro done b _ hb _ hd; exact ⟨hb, hd⟩
    | cons e rest ih =>
      intro done b hes hb hrep hd
      rw [List.foldl_cons]
      refine ih (done ++ [e]) _ (by simpa using hes) (balStep_inv H hb e) ?_ ?_
      · intro k hk
        cases e with
        | chain t x =>
          obtain ⟨o, ho, hk⟩ := hrep k hk
          exact ⟨o, List.mem_append_left _ ho, hk⟩
        | report o c s =>
          obtain ⟨a, ha⟩ := outputAdd_eq H b o c s
          simp only [balStep, ha] at hk
          have : k ∈ b.outputs.map (·.1) ∨ (k = o.id ∧ c = true ∧ s = false) := by
            unfold Balance.record at hk
            cases c <;> cases s <;> simp only [Bool.false_eq_true, if_true, if_false] at hk <;> (repeat' split at hk) <;>
              (try simp only [OutMap.mem_put_keys, OutMap.mem_pop_keys] at hk) <;> (try tauto)
          rcases this with hk | ⟨rfl, rfl, rfl⟩
          · obtain ⟨o', ho', hk⟩ := hrep k hk
            exact ⟨o', List.mem_append_left _ ho', hk⟩
          · exact ⟨o, by simp, rfl⟩
      · cases e with
        | chain t x => exact hd
        | report o c s =>
          obtain ⟨a, ha⟩ := outputAdd_eq H b o c s
          simp only [balStep, ha]
          have hno : c = false → s = false → o.id ∉ b.outputs.map (·.1) := by
            rintro rfl rfl hin
            obtain ⟨o', ho', hk⟩ := hrep _ hin
            obtain ⟨p, q, rfl⟩ := List.append_of_mem ho'
            exact h p o' q o rest (by rw [← hes]) hk
          intro k hk hu
          have := hd k
          unfold Balance.record at hk hu
          cases c <;> cases s <;> simp only [Bool.false_eq_true, if_true, if_false] at hk hu <;> (repeat' split at hk) <;>
            (repeat' split at hu) <;>
            (try simp only [OutMap.mem_put_keys, OutMap.mem_pop_keys] at hk hu) <;>
            first
              | tauto
              | (by_cases hko : k = o.id
                 · subst hko; tauto
                 · tauto)
  obtain ⟨hb, hd⟩ := key es [] {} rfl balInv_new (by simp) (by simp)
  rw [show es.foldl (balStep H) {} = balRun H es from rfl] at hb hd
  rw [hb.counted_ids, List.nodup_append]
  exact ⟨hb.no, hb.nu, fun a ha b' hb' hab => hd a ha (hab ▸ hb')⟩

/-- **C49** (the amounts). What a balance counts, confirmed or not, is split into available and locked coins: nothing is lost or counted twice. -/
theorem C49_amounts_split_partial (b : Balance) (h1 : SaneOutputs b.outputs.values) (h2 : SaneOutputs b.unconf.values) :
    ∃ a l ua ul, b.availableCoins = .ok a ∧ b.lockedCoins = .ok l ∧ b.unconfCoins = .ok ua ∧ b.unconfLockedCoins = .ok ul ∧
      amount a + amount l = total b.outputs.values ∧ amount ua + amount ul = total b.unconf.values := by
  obtain ⟨a, a1, _, a3⟩ := sum_sane (SaneOutputs.sublist h1 (available_sub b))
  obtain ⟨ua, u1, _, u3⟩ := sum_sane (SaneOutputs.sublist h2 (unconfAvailable_sub b))
  have hl : ∃ l, b.lockedCoins = .ok l ∧ amount l + amount a = total b.outputs.values := by
    unfold Balance.lockedCoins
    split
    · rename_i hk
      obtain ⟨l, l1, _, l3⟩ := sum_sane (SaneOutputs.sublist h1 (List.filter_sublist (p := fun co => b.isLocked co)))
      refine ⟨l, l1, ?_⟩
      rw [l3, a3, Balance.available, if_pos hk]
      have := total_filter b.outputs.values fun co => b.isLocked co
      omega
    · rename_i hk
      refine ⟨⟨some ⟨false, 0, 0⟩⟩, rfl, ?_⟩
      rw [a3, Balance.available, if_neg hk, amount_zero]; omega
  have hul : ∃ l, b.unconfLockedCoins = .ok l ∧ amount l + amount ua = total b.unconf.values := by
    unfold Balance.unconfLockedCoins
    split
    · rename_i hk
      obtain ⟨l, l1, _, l3⟩ := sum_sane (SaneOutputs.sublist h2 (List.filter_sublist (p := fun co => b.isLocked co)))
      refine ⟨l, l1, ?_⟩
      rw [l3, u3, Balance.unconfAvailable, if_pos hk]
      have := total_filter b.unconf.values fun co => b.isLocked co
      omega
    · rename_i hk
      refine ⟨⟨some ⟨false, 0, 0⟩⟩, rfl, ?_⟩
      rw [u3, Balance.unconfAvailable, if_neg hk, amount_zero]; omega
  obtain ⟨l, l1, l2⟩ := hl
  obtain ⟨ul, ul1, ul2⟩ := hul
  exact ⟨a, l, ua, ul, a1, l1, u1, ul1, by omega, by omega⟩

/-- **C49** (finding). An output reported confirmed and then unconfirmed (as happens when a wallet re-reads an unconfirmed transaction) is
counted twice: 5 TFT appear as 5 available and 5 unconfirmed. -/
theorem C49_counted_once_false :
    counted (balRun toyHash [.report coinA true false, .report coinA false false]) = [coinA, coinA] ∧
    (∃ a u, (balRun toyHash [.report coinA true false, .report coinA false false]).availableCoins = .ok a ∧
      (balRun toyHash [.report coinA true false, .report coinA false false]).unconfCoins = .ok u ∧ amount a + amount u = 10 * 10 ^ 9) :=
  ⟨by decide +kernel, ⟨some ⟨false, 5, 0⟩⟩, ⟨some ⟨false, 5, 0⟩⟩, by decide +kernel, by decide +kernel, by decide +kernel⟩

example : ConfirmationsStay [.report coinA false false, .report coinB true false, .report coinA true false] := by
  intro before o mid o' after h
  match before with
  | [] => simp at h
  | [e] =>
    simp only [List.cons_append, List.nil_append, List.cons.injEq, BalEvent.report.injEq] at h
    obtain ⟨-, ⟨rfl, -, -⟩, h⟩ := h
    match mid with
    | [] => simp at h
    | e' :: mid' => simp at h
  | [e, e'] => simp at h
  | e :: e' :: e'' :: r => simp at h
example : SaneOutputs [coinA, coinB] := by
  constructor
  · intro co hco
    simp only [List.mem_cons, List.not_mem_nil, or_false] at hco
    rcases hco with rfl | rfl <;> exact ⟨rfl, by decide⟩
  · decide

/-! ## C50 -/

/-- **C50** (what holds). Merging keeps every output known to be spent in either balance known as spent, offers nothing that neither
balance counted, and if no balance counts an output the other knows as spent, the merge offers no spent output. -/
theorem C50_merge_partial (H : Bytes → Bytes) (es es' : List BalEvent) (m : Balance) (hm : (balRun H es).merge (balRun H es') = .ok m) :
    (∀ id, ReportedSpent es id ∨ ReportedSpent es' id → id ∈ (m.spent ++ m.unconfSpent).map (·.1)) ∧
    (∀ co ∈ counted m, co ∈ counted (balRun H es) ∨ co ∈ counted (balRun H es')) ∧
    ((∀ id, ReportedSpent es id → ∀ co ∈ counted (balRun H es'), co.id ≠ id) →
     (∀ id, ReportedSpent es' id → ∀ co ∈ counted (balRun H es), co.id ≠ id) →
      ∀ id, ReportedSpent es id ∨ ReportedSpent es' id → ∀ co ∈ spendable m, co.id ≠ id) := by
  have spent : ∀ (es : List BalEvent) id, ReportedSpent es id → KnownSpent (balRun H es) id := by
    intro es id h
    have key : ∀ (es : List BalEvent) (b : Balance), (KnownSpent b id ∨ ReportedSpent es id) → KnownSpent (es.foldl (balStep H) b) id := by
      intro es
      induction es with
      | nil =>
        rintro b (h | ⟨o, c, h, _⟩)
        · exact h
        · simp at h
      | cons e es ih =>
        intro b h
        rw [List.foldl_cons]
        apply ih
        rcases h with h | ⟨o, c, h, ho⟩
        · exact .inl (balStep_spent_mono H h e)
        · rcases List.mem_cons.1 h with h | h
          · subst h; subst ho
            exact .inl (outputAdd_spent H b o c)
          · exact .inr ⟨o, c, h, ho⟩
    exact key es {} (.inr h)
  unfold Balance.merge at hm
  cases hc : (balRun H es).mergeChain (balRun H es') with
  | error e => simp [hc, bind, Except.bind] at hm
  | ok b =>
    simp only [hc, bind, Except.bind, pure, Except.pure, Except.ok.injEq] at hm
    have hb : b.outputs = (balRun H es).outputs ∧ b.spent = (balRun H es).spent ∧ b.unconf = (balRun H es).unconf ∧
        b.unconfSpent = (balRun H es).unconfSpent := by
      unfold Balance.mergeChain at hc
      repeat' split at hc
      all_goals first | (cases hc; done) | (cases hc; simp)
    subst hm
    have hcount : ∀ co ∈ counted ({ b with
        outputs := b.outputs.update (balRun H es').outputs, spent := b.spent.update (balRun H es').spent,
        unconf := b.unconf.update (balRun H es').unconf, unconfSpent := b.unconfSpent.update (balRun H es').unconfSpent,
        addresses := (balRun H es').addresses.foldl setAdd b.addresses } : Balance),
        co ∈ counted (balRun H es) ∨ co ∈ counted (balRun H es') := by
      have upd : ∀ (m o : OutMap) (x : CoinOutput), x ∈ (m.update o).values → x ∈ m.values ∨ x ∈ o.values := by
        intro m o x hx
        obtain ⟨p, hp, rfl⟩ := List.mem_map.1 hx
        rcases OutMap.mem_update hp with hp | hp
        · exact .inl (List.mem_map.2 ⟨p, hp, rfl⟩)
        · exact .inr (List.mem_map.2 ⟨p, hp, rfl⟩)
      intro co hco
      unfold counted at *
      simp only [List.mem_append] at *
      rw [hb.1, hb.2.2.1] at hco
      have h1 := upd (balRun H es).outputs (balRun H es').outputs co
      have h2 := upd (balRun H es).unconf (balRun H es').unconf co
      tauto
    refine ⟨?_, hcount, ?_⟩
    · intro id h
      simp only [List.map_append, List.mem_append, OutMap.mem_update_keys]
      rw [hb.2.1, hb.2.2.2]
      have h1 := spent es id
      have h2 := spent es' id
      unfold KnownSpent at h1 h2
      tauto
    · intro h1 h2 id hid co hco
      have hco := hcount co ((spendable_sub _).subset hco)
      rcases hid with hid | hid <;> rcases hco with hco | hco
      · exact (C48_spent_never_spendable H es id hid).2 co hco
      · exact h1 id hid co hco
      · exact h2 id hid co hco
      · exact (C48_spent_never_spendable H es' id hid).2 co hco

/-- **C50** (finding). Nothing is checked across the two balances: one that knows the output as spent, merged with one that has seen only
its creation, offers it for spending. -/
theorem C50_merge_false :
    ∃ m, ReportedSpent [.report coinA true true] coinA.id ∧
      (balRun toyHash [.report coinA true true]).merge (balRun toyHash [.report coinA true false]) = .ok m ∧ coinA ∈ spendable m := by
  refine ⟨(match (balRun toyHash [.report coinA true true]).merge (balRun toyHash [.report coinA true false]) with
    | .ok m => m
    | .error _ => {}), ⟨coinA, true, by simp, rfl⟩, by decide +kernel, by decide +kernel⟩

example : ∃ m, (balRun toyHash [.report coinA true true]).merge (balRun toyHash [.report coinB true false]) = .ok m ∧ spendable m = [coinB] := by
  refine ⟨(match (balRun toyHash [.report coinA true true]).merge (balRun toyHash [.report coinB true false]) with
    | .ok m => m
    | .error _ => {}), by decide +kernel, by decide +kernel⟩

end TF.Props
