import Verif.Props.Fund
/-! # C55, C77: draining a wallet -/
namespace TF.Props
open TF Spec

/-! ## C55 -/

/-- One transaction of a drain: a single output, a single fee, and inputs worth both. -/
structure DrainTx (cond : Condition) (fee : Currency) (t : TxV1) : Prop where
  inputs : t.coinInputs ≠ [] ∧ t.coinInputs.length ≤ 99
  only : t.stakeInputs = [] ∧ t.stakeOutputs = []
  fees : t.minerFees.map amount = [amount fee]
  balance : ∃ o, t.coinOutputs = [o] ∧ o.condition = cond ∧ inputsTotal t.coinInputs = amount o.value + amount fee

theorem copyInputs_of {outs : List CoinOutput} {ins : List CoinInput} (h : outs.mapM CoinInput.ofOutput = .ok ins) :
    (copyInputs ins).map CoinInput.parentOutput = outs ∧ (copyInputs ins).map (·.parentId) = outs.map (·.id) := by
  obtain ⟨h1, h2⟩ := ofOutputs_spec h
  unfold copyInputs
  rw [List.map_map, List.map_map, ← h1]
  constructor
  · rfl
  · rw [show ins.map ((fun x : CoinInput => x.parentId) ∘ fun ci => ⟨ci.parentId, ci.fulfillment, some ci.parentOutput⟩) = ins.map (·.parentId) from rfl, h2, h1]

theorem drainTx_spec {cond : Condition} {fee : Currency} {data : DataArg} {used : List CoinOutput} {t : TxV1} (h : drainTx cond fee data used = .ok t)
    (hne : used ≠ []) (hl : used.length ≤ 99) :
    t.coinInputs.map (·.parentId) = used.map (·.id) ∧
    (GoodCurrency fee → SaneOutputs used → DrainTx cond fee t) := by
  unfold drainTx at h
  simp only [bind, Except.bind] at h
  split at h
  · cases h
  · split at h
    · cases h
    · rename_i fee' hfee
      cases hfee
      split at h
      · cases h
      · rename_i tot htot
        split at h
        · cases h
        · rename_i am ham
          split at h
          · cases h
          · rename_i ins hins
            cases h
            obtain ⟨h1, h2⟩ := copyInputs_of hins
            refine ⟨h2, fun hf hs => ⟨⟨?_, ?_⟩, ⟨rfl, rfl⟩, rfl, ⟨am, cond, ⟨[]⟩⟩, rfl, rfl, ?_⟩⟩
            · intro e
              simp only at e
              rw [e] at h2
              exact hne (List.map_eq_nil_iff.1 h2.symm)
            · have := congrArg List.length h2
              simp only [List.length_map] at this
              show (copyInputs ins).length ≤ 99
              omega
            · obtain ⟨c, c1, c2, c3⟩ := sum_sane hs
              rw [c1] at htot; cases htot
              show inputsTotal (copyInputs ins) = amount am + amount fee
              unfold inputsTotal
              rw [h1]
              have hge : amount fee ≤ amount tot := by
                by_contra hlt
                rw [(C15_add_sub_exact_partial tot fee c2 hf).2.2 (by omega)] at ham
                cases ham
              obtain ⟨r, r1, _, r3⟩ := sub_amount c2 hf (by rw [c3]; exact hs.2) hge
              rw [r1] at ham; cases ham
              omega

theorem drainLoop_spec {cond : Condition} {fee : Currency} {data : DataArg} (fuel : Nat) {outs : List CoinOutput} {txs : List TxV1}
    (h : drainLoop cond fee data fuel outs = .ok txs) (hfuel : outs.length ≤ fuel) :
    (txs.flatMap (·.coinInputs)).map (·.parentId) = outs.map (·.id) ∧
    (GoodCurrency fee → SaneOutputs outs → ∀ t ∈ txs, DrainTx cond fee t) := by
  induction fuel generalizing outs txs with
  | zero =>
    have : outs = [] := List.length_eq_zero_iff.1 (by omega)
    subst this
    cases h
    simp
  | succ fuel ih =>
    cases outs with
    | nil => cases h; simp
    | cons a l =>
      unfold drainLoop at h
      simp only [bind, Except.bind] at h
      split at h
      · cases h
      · rename_i t ht
        split at h
        · cases h
        · rename_i rest hrest
          cases h
          have hn : 0 < min (a :: l).length maxInputs := by simp only [List.length_cons, maxInputs]; omega
          have hn2 : min (a :: l).length maxInputs ≤ 99 := Nat.min_le_right _ _
          obtain ⟨h1, h2⟩ := drainTx_spec ht (by
            intro e
            rw [List.take_eq_nil_iff] at e
            rcases e with e | e
            · omega
            · cases e) (by rw [List.length_take]; omega)
          obtain ⟨i1, i2⟩ := ih hrest (by rw [List.length_drop]; omega)
          constructor
          · rw [List.flatMap_cons, List.map_append, h1, i1, ← List.map_append, List.take_append_drop]
          · intro hf hs t' ht'
            rcases List.mem_cons.1 ht' with rfl | ht'
            · exact h2 hf (SaneOutputs.sublist hs (List.take_sublist _ _))
            · exact i2 hf (SaneOutputs.sublist hs (List.drop_sublist _ _)) t' ht'

theorem drain_ok {H : Bytes → Bytes} {b : Balance} {r : Recipient} {fee : Currency} {unc : Bool} {data : DataArg} {lock : LockVal} {txs : List TxV1}
    (h : b.drain H r fee unc data lock = .ok txs) :
    ∃ cond, fromRecipient H r lock = .ok cond ∧ drainLoop cond fee data (toDrain b unc).length (toDrain b unc) = .ok txs := by
  unfold Balance.drain at h
  simp only [bind, Except.bind, throw, throwThe, MonadExceptOf.throw] at h
  split at h
  · cases h
  · rename_i cond hc
    split at h
    · cases h
    · exact ⟨cond, hc, h⟩

/-- **C55**, each output once: the transactions of a drain spend, in order, exactly the selected outputs. -/
theorem C55_drain_spends_selected (H : Bytes → Bytes) (b : Balance) (r : Recipient) (fee : Currency) (unc : Bool) (data : DataArg) (lock : LockVal)
    (txs : List TxV1) (h : b.drain H r fee unc data lock = .ok txs) :
    (txs.flatMap (·.coinInputs)).map (·.parentId) = (toDrain b unc).map (·.id) := by
  obtain ⟨cond, _, h⟩ := drain_ok h
  exact (drainLoop_spec _ h (Nat.le_refl _)).1

/-- **C55**, each output once: after any history in which no confirmation is taken back no output is drained twice. -/
theorem C55_drain_once_partial (H : Bytes → Bytes) (es : List BalEvent) (hes : ConfirmationsStay es) (r : Recipient) (fee : Currency) (unc : Bool)
    (data : DataArg) (lock : LockVal) (txs : List TxV1) (h : (balRun H es).drain H r fee unc data lock = .ok txs) :
    ((txs.flatMap (·.coinInputs)).map (·.parentId)).Nodup := by
  rw [C55_drain_spends_selected H _ r fee unc data lock txs h]
  have hn := C49_counted_once_partial H es hes
  have hsub : (toDrain (balRun H es) unc).Sublist (counted (balRun H es)) := by
    unfold toDrain
    split
    · exact spendable_sub _
    · exact (List.sublist_append_left _ _).trans (spendable_sub _)
  exact (hsub.map _).nodup hn

/-- **C55**, the transactions (what holds: amounts below 10^19 TFT): at most 99 inputs each, one output to the recipient, worth the inputs
minus the fee. -/
theorem C55_drain_transactions_partial (H : Bytes → Bytes) (b : Balance) (r : Recipient) (fee : Currency) (unc : Bool) (data : DataArg) (lock : LockVal)
    (txs : List TxV1) (hf : GoodCurrency fee) (hs : SaneOutputs (toDrain b unc)) (h : b.drain H r fee unc data lock = .ok txs) :
    ∃ cond, fromRecipient H r lock = .ok cond ∧ ∀ t ∈ txs, DrainTx cond fee t := by
  obtain ⟨cond, hc, h⟩ := drain_ok h
  exact ⟨cond, hc, (drainLoop_spec _ h (Nat.le_refl _)).2 hf hs⟩

/-- A fee of 0.1 TFT. -/
def fee01 : Currency := ⟨some ⟨false, 1, -1⟩⟩
/-- The `i`-th of many personal outputs of 2 TFT. -/
def coinP (i : Nat) : CoinOutput := ⟨⟨some ⟨false, 2, 0⟩⟩, .unlockHash (addrOf key1), ⟨UInt8.ofNat i :: List.replicate 31 6⟩⟩
/-- A balance of `n` outputs of 2 TFT and one of `c`. -/
def balP (n : Nat) (c : CoinOutput) : Balance :=
  balRun toyHash ((List.range n).map (fun i => .report (coinP i) true false) ++ [.report c true false])

example : ∃ txs, (balP 99 coinA).drain toyHash (.uh (addrOf key2)) fee01 false .none .none = .ok txs ∧
    txs.map (fun t => (t.coinInputs.length, t.coinOutputs.map fun o => amount o.value)) = [(99, [1979 * 10 ^ 8]), (1, [49 * 10 ^ 8])] := by
  refine ⟨(match (balP 99 coinA).drain toyHash (.uh (addrOf key2)) fee01 false .none .none with
    | .ok r => r
    | .error _ => []), by decide +kernel, by decide +kernel⟩

/-- **C55** (finding). An output counted twice (see C49) is drained twice, in one transaction. -/
theorem C55_drain_once_false :
    ∃ txs, (balRun toyHash [.report coinA true false, .report coinA false false]).drain toyHash (.uh (addrOf key2)) fee01 true .none .none = .ok txs ∧
      (txs.flatMap (·.coinInputs)).map (·.parentId) = [coinA.id, coinA.id] := by
  refine ⟨(match (balRun toyHash [.report coinA true false, .report coinA false false]).drain toyHash (.uh (addrOf key2)) fee01 true .none .none with
    | .ok r => r
    | .error _ => []), by decide +kernel, by decide +kernel⟩

/-! ## C77 -/

/-- **C77** (what holds). When every selected output alone is worth the fee (and can be spent with a signature) the drain succeeds. -/
theorem C77_drain_succeeds_partial (H : Bytes → Bytes) (b : Balance) (r : Recipient) (fee : Currency) (unc : Bool) (data : DataArg) (lock : LockVal)
    (cond : Condition) (d : Bytes) (hr : fromRecipient H r lock = .ok cond) (hd : setData data = .ok d)
    (hf : GoodCurrency fee) (hpos : 0 < amount fee) (hs : SaneOutputs (toDrain b unc))
    (hin : ∀ co ∈ toDrain b unc, amount fee ≤ amount co.value ∧ ∃ i, CoinInput.ofOutput co = .ok i) :
    ∃ txs, b.drain H r fee unc data lock = .ok txs := by
  have htx : ∀ used : List CoinOutput, used ≠ [] → SaneOutputs used →
      (∀ co ∈ used, amount fee ≤ amount co.value ∧ ∃ i, CoinInput.ofOutput co = .ok i) → ∃ t, drainTx cond fee data used = .ok t := by
    intro used hne hsu hu
    have hins : ∃ ins, used.mapM CoinInput.ofOutput = .ok ins := by
      clear hne hsu
      induction used with
      | nil => exact ⟨[], rfl⟩
      | cons a l ih =>
        obtain ⟨i, hi⟩ := (hu a List.mem_cons_self).2
        obtain ⟨is, his⟩ := ih fun co hco => hu co (List.mem_cons_of_mem _ hco)
        exact ⟨i :: is, by rw [List.mapM_cons, hi, his]; rfl⟩
    obtain ⟨ins, hins⟩ := hins
    obtain ⟨c, c1, c2, c3⟩ := sum_sane hsu
    have hle : amount fee ≤ amount c := by
      cases used with
      | nil => exact absurd rfl hne
      | cons a l =>
        have := (hu a List.mem_cons_self).1
        rw [c3, total_cons]; omega
    obtain ⟨x, x1, _, _⟩ := sub_amount c2 hf (by rw [c3]; exact hsu.2) hle
    refine ⟨{ data := d, minerFees := [⟨some fee.value⟩], coinOutputs := [⟨x, cond, ⟨[]⟩⟩], coinInputs := copyInputs ins }, ?_⟩
    unfold drainTx
    simp only [bind, Except.bind, hd, c1, x1, hins, Currency.set]
    rfl
  have hloop : ∀ (fuel : Nat) (outs : List CoinOutput), SaneOutputs outs →
      (∀ co ∈ outs, amount fee ≤ amount co.value ∧ ∃ i, CoinInput.ofOutput co = .ok i) → ∃ txs, drainLoop cond fee data fuel outs = .ok txs := by
    intro fuel
    induction fuel with
    | zero => intro outs _ _; exact ⟨[], rfl⟩
    | succ fuel ih =>
      intro outs hso hu
      cases outs with
      | nil => exact ⟨[], rfl⟩
      | cons a l =>
        have hn : 0 < min (a :: l).length maxInputs := by simp only [List.length_cons, maxInputs]; omega
        obtain ⟨t, ht⟩ := htx ((a :: l).take (min (a :: l).length maxInputs)) (by
          intro e
          rw [List.take_eq_nil_iff] at e
          rcases e with e | e
          · omega
          · cases e) (SaneOutputs.sublist hso (List.take_sublist _ _)) fun co hco => hu co ((List.take_sublist _ _).subset hco)
        obtain ⟨ts, hts⟩ := ih ((a :: l).drop (min (a :: l).length maxInputs)) (SaneOutputs.sublist hso (List.drop_sublist _ _))
          fun co hco => hu co ((List.drop_sublist _ _).subset hco)
        refine ⟨t :: ts, ?_⟩
        unfold drainLoop
        simp only [bind, Except.bind, ht, hts]
        rfl
  obtain ⟨txs, htxs⟩ := hloop (toDrain b unc).length _ hs hin
  refine ⟨txs, ?_⟩
  unfold Balance.drain
  simp only [bind, Except.bind, throw, throwThe, MonadExceptOf.throw, hr]
  rw [if_neg]
  · exact htxs
  · intro e
    rw [eqv_amount hf good_zero, amount_zero] at e
    omega

example : fromRecipient toyHash (.uh (addrOf key2)) .none = .ok (.unlockHash (addrOf key2)) ∧ 0 < amount fee01 ∧
    ∀ co ∈ toDrain (balP 3 coinA) false, amount fee01 ≤ amount co.value ∧ ∃ i, CoinInput.ofOutput co = .ok i := by
  refine ⟨rfl, by decide, fun co hco => ?_⟩
  rw [show toDrain (balP 3 coinA) false = [coinP 0, coinP 1, coinP 2, coinA] by decide +kernel] at hco
  simp only [List.mem_cons, List.not_mem_nil, or_false] at hco
  rcases hco with rfl | rfl | rfl | rfl <;> exact ⟨by decide, _, rfl⟩

/-- **C77** (finding). One output smaller than the fee that ends up alone in the last transaction makes the whole drain fail, with a
`NameError`, although 198 TFT could have been moved. -/
theorem C77_drain_succeeds_false :
    (balP 99 coinTiny).drain toyHash (.uh (addrOf key2)) fee01 false .none .none = .error .nameError ∧
    total (toDrain (balP 99 coinTiny) false) = 198 * 10 ^ 9 + 7 := by
  constructor <;> decide +kernel

end TF.Props
