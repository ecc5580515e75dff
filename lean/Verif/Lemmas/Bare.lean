import Verif.Lemmas.WalletSign
/-! # Signing changes signatures only -/
namespace TF.Props
open TF Spec

theorem setIdAt_bare (l : List CoinOutput) (i : Nat) (id : Hash) : (setIdAt l i id).map bareOutput = l.map bareOutput := by
  unfold setIdAt
  split
  · rfl
  · rename_i co hco
    apply List.ext_getElem?
    intro j
    rw [List.getElem?_map, List.getElem?_map]
    by_cases hj : i = j
    · subst hj
      rw [List.getElem?_set_self (List.getElem?_eq_some_iff.1 hco).1, hco]; rfl
    · rw [List.getElem?_set_ne hj]

theorem setOutputId_bare (t : Tx) (i : Nat) (id : Hash) : bare (t.setOutputId i id) = bare t := by
  have h : ∀ r : Option CoinOutput, (if i = 0 then r.map fun co => { co with id := id } else r).map bareOutput = r.map bareOutput := by
    intro r; split
    · cases r <;> rfl
    · rfl
  cases t <;> simp only [Tx.setOutputId, bare, setIdAt_bare, h]

theorem claimOutputs_bare {H : Bytes → Bytes} {addrs : List Str} {l : List CoinOutput} : ∀ {i : Nat} {t t' : Tx} {w w' : Wallets},
    claimOutputs H addrs i l t w = .ok (t', w') → bare t' = bare t := by
  induction l with
  | nil => intro i t t' w w' h; cases h; rfl
  | cons co l ih =>
    intro i t t' w w' h
    simp only [claimOutputs, bind, Except.bind] at h
    split at h
    · cases h
    · split at h
      · split at h
        · cases h
        · split at h
          · cases h
          · rw [ih h, setOutputId_bare]
      · exact ih h

theorem signOne_bare {W : World} {t t' : Tx} {r : TxRequest} {b : Bool} (h : W.signOne t r = .ok (t', b)) : bare t' = bare t := by
  unfold World.signOne at h
  split at h
  · cases h; rfl
  · split at h
    · cases h
    · split at h
      · rename_i q t1 hq
        cases h
        unfold Request.fulfillCb at hq
        split at hq
        · simp at hq
        · simp only at hq
          split at hq
          · simp at hq
          · split at hq
            · simp at hq
            · split at hq
              · simp at hq
              · rename_i t2 hs2
                cases hq
                exact (congrArg (fun x => bare x.1) hs2).symm.trans (sign_bare ..)
      · cases h

theorem signAll_bare {W : World} {rs : List TxRequest} : ∀ {t t' : Tx} {n : Nat}, W.signAll rs t = .ok (t', n) → bare t' = bare t := by
  induction rs with
  | nil => intro t t' n h; cases h; rfl
  | cons r rs ih =>
    intro t t' n h
    simp only [World.signAll, bind, Except.bind] at h
    split at h
    · cases h
    · rename_i x hx
      split at h
      · cases h
      · rename_i y hy
        simp only [pure, Except.pure, Except.ok.injEq, Prod.mk.injEq] at h
        rw [← h.1, ih hy, signOne_bare hx]

theorem signNew_bare {W : World} {t t' : Tx} (h : W.signNew t = .ok t') : bare t' = bare t := by
  unfold World.signNew at h
  simp only [bind, Except.bind] at h
  split at h
  · cases h
  · split at h
    · cases h
    · split at h
      · cases h
      · rename_i x hx
        cases h
        exact signAll_bare hx

theorem afterPost_bare {W : World} {w : Wallets} {t t' : Tx} (h : W.afterPost w t = .ok t') : bare t' = bare t := by
  unfold World.afterPost at h
  simp only [bind, Except.bind] at h
  split at h
  · cases h
  · split at h
    · cases h
    · split at h
      · cases h
      · split at h
        · cases h
        · rename_i x hx
          cases h
          exact claimOutputs_bare hx

/-! ## What the bare transaction determines -/

theorem bare_outputs {t t' : Tx} (h : bare t = bare t') : t.coinOutputs.map bareOutput = t'.coinOutputs.map bareOutput := by
  cases t <;> cases t' <;> simp only [bare, Tx.v1.injEq, Tx.v128.injEq, Tx.v129.injEq, Tx.v144.injEq, Tx.v145.injEq, Tx.v146.injEq, Tx.v208.injEq,
    Tx.v209.injEq, Tx.v210.injEq, TxV1.mk.injEq, TxV129.mk.injEq, TxV144.mk.injEq, TxV145.mk.injEq, TxV146.mk.injEq, TxV208.mk.injEq, TxV210.mk.injEq,
    reduceCtorEq] at h
  · exact h.2.1
  · rfl
  · exact h.2.2.1
  · simp only [Tx.coinOutputs, Option.toList_map, ← Option.toList_map]; rw [h.2.2.2.2.2.1]
  · simp only [Tx.coinOutputs, Option.toList_map, ← Option.toList_map]; rw [h.2.2.2.2.2.2.2.2.1]
  · simp only [Tx.coinOutputs, Option.toList_map, ← Option.toList_map]; rw [h.2.2.2.2.2.1]
  · simp only [Tx.coinOutputs, Option.toList_map, ← Option.toList_map]; rw [h.2.2.2.2]
  · rw [h]
  · simp only [Tx.coinOutputs, Option.toList_map, ← Option.toList_map]; rw [h.2.2.2.2]

theorem bare_fees {t t' : Tx} (h : bare t = bare t') : t.minerFees = t'.minerFees := by
  have key : ∀ t : Tx, (bare t).minerFees = t.minerFees := by intro t; cases t <;> rfl
  rw [← key t, h, key]

theorem bare_inputs {t t' : Tx} (h : bare t = bare t') : t.coinInputs.map (·.map bareInput) = t'.coinInputs.map (·.map bareInput) := by
  have key : ∀ t : Tx, (bare t).coinInputs = t.coinInputs.map (·.map bareInput) := by intro t; cases t <;> rfl
  rw [← key t, h, key]

theorem bare_total {t t' : Tx} (h : bare t = bare t') : total t.coinOutputs = total t'.coinOutputs := by
  have h1 := congrArg (List.map fun co : CoinOutput => amount co.value) (bare_outputs h)
  simp only [List.map_map] at h1
  exact congrArg List.sum h1

theorem bare_pays {t t' : Tx} (h : bare t = bare t') : t.coinOutputs.map (fun co => (amount co.value, co.condition)) =
    t'.coinOutputs.map (fun co => (amount co.value, co.condition)) := by
  have h1 := congrArg (List.map fun co : CoinOutput => (amount co.value, co.condition)) (bare_outputs h)
  simp only [List.map_map] at h1
  exact h1

/-- Being a payment does not depend on signatures. -/
theorem isPayment_bare {W : World} {w : Wallets} {pays : List (Nat × Condition)} {src : Source} {refund : Recipient} {data : DataArg} {t t' : Tx}
    (h : bare t' = bare t) (hp : IsPayment W w pays src refund data t) : IsPayment W w pays src refund data t' := by
  refine ⟨?_, ?_, ?_, ?_⟩
  · obtain ⟨v, rfl, h1, h2, h3, h4⟩ := hp.standard
    cases t' <;> simp only [bare, reduceCtorEq] at h
    rename_i v'
    simp only [Tx.v1.injEq, TxV1.mk.injEq, h1, List.map_nil, List.map_eq_nil_iff] at h
    refine ⟨v', rfl, h.2.2.1, by rw [h.2.2.2.1, h2], by rw [h.2.2.2.2.2.2, h3], by rw [h.2.2.2.2.2.1, h4]⟩
  · rw [bare_pays h]; exact hp.outputs
  · rw [bare_fees h]; exact hp.fee
  · obtain ⟨l, h1, h2, h3, h4⟩ := hp.inputs
    have hi := bare_inputs h
    rw [h1] at hi
    cases hc : t'.coinInputs with
    | none => rw [hc] at hi; cases hi
    | some l' =>
      rw [hc] at hi
      simp only [Option.map_some, Option.some.injEq] at hi
      refine ⟨l', rfl, ?_, ?_, ?_⟩
      · have := congrArg List.length hi
        simp only [List.length_map] at this
        omega
      · intro ci hci
        have : bareInput ci ∈ l'.map bareInput := List.mem_map_of_mem hci
        rw [hi] at this
        obtain ⟨cj, hcj, e⟩ := List.mem_map.1 this
        obtain ⟨co, g1, g2, g3⟩ := h3 cj hcj
        refine ⟨co, g1, ?_, ?_⟩
        · exact (congrArg CoinInput.parentId e).symm.trans g2
        · exact (congrArg CoinInput.parent e).symm.trans g3
      · rw [bare_total h, ← h4]
        unfold inputsTotal
        have := congrArg (List.map CoinInput.parentOutput) hi
        simp only [List.map_map] at this
        exact congrArg total this

theorem isFunded_bare {W : World} {w : Wallets} {extra : Nat} {src : Source} {refund : Recipient} {t t' : Tx}
    (h : bare t' = bare t) (hp : IsFunded W w extra src refund t) : IsFunded W w extra src refund t' := by
  refine ⟨?_, ?_, ?_⟩
  · rw [bare_fees h]; exact hp.fee
  · have h1 := bare_outputs h
    rcases hp.outputs with e | ⟨co, e, h2, h3⟩
    · rw [e] at h1
      exact .inl (List.map_eq_nil_iff.1 h1)
    · rw [e] at h1
      cases hc : t'.coinOutputs with
      | nil => rw [hc] at h1; cases h1
      | cons a l =>
        rw [hc] at h1
        simp only [List.map_cons, List.map_nil, List.cons.injEq, List.map_eq_nil_iff] at h1
        obtain ⟨h4, rfl⟩ := h1
        have e1 := congrArg CoinOutput.value h4
        have e2 := congrArg CoinOutput.condition h4
        simp only [bareOutput] at e1 e2
        exact .inr ⟨a, rfl, by rw [e1]; exact h2, by rw [e2]; exact h3⟩
  · obtain ⟨l, h1, h2, h3, h4⟩ := hp.inputs
    have hi := bare_inputs h
    rw [h1] at hi
    cases hc : t'.coinInputs with
    | none => rw [hc] at hi; cases hi
    | some l' =>
      rw [hc] at hi
      simp only [Option.map_some, Option.some.injEq] at hi
      refine ⟨l', rfl, ?_, ?_, ?_⟩
      · have := congrArg List.length hi
        simp only [List.length_map] at this
        omega
      · intro ci hci
        have : bareInput ci ∈ l'.map bareInput := List.mem_map_of_mem hci
        rw [hi] at this
        obtain ⟨cj, hcj, e⟩ := List.mem_map.1 this
        obtain ⟨co, g1, g2, g3⟩ := h3 cj hcj
        refine ⟨co, g1, ?_, ?_⟩
        · exact (congrArg CoinInput.parentId e).symm.trans g2
        · exact (congrArg CoinInput.parent e).symm.trans g3
      · rw [bare_total h, ← h4]
        unfold inputsTotal
        have := congrArg (List.map CoinInput.parentOutput) hi
        simp only [List.map_map] at this
        exact congrArg total this

/-! ## Signing and submitting -/

/-- What happens when a new transaction is signed and submitted. -/
theorem signSubmit_spec {W : World} {w : Wallets} {t0 : Tx} (o : Outcome (Tx × Bool)) (ho : W.signSubmit w t0 = o) :
    (∃ e, o = ⟨[], .error e⟩) ∨ ∃ t, W.signNew t0 = .ok t ∧ bare t = bare t0 ∧
      ((t.isFulfilled = .ok true ∧ o = ⟨[t], do return (← W.afterPost w t, true)⟩) ∨ (t.isFulfilled = .ok false ∧ o = ⟨[], .ok (t, false)⟩)) := by
  subst ho
  unfold World.signSubmit
  cases hs : W.signNew t0 with
  | error e => exact .inl ⟨e, rfl⟩
  | ok t =>
    have e1 : Outcome.ofRes (.ok t : Res Tx) (W.submit w) = W.submit w t := rfl
    rw [e1]
    unfold World.submit
    cases hf : t.isFulfilled with
    | error e => exact .inl ⟨e, rfl⟩
    | ok b =>
      refine .inr ⟨t, rfl, signNew_bare hs, ?_⟩
      cases b with
      | true => exact .inl ⟨hf, rfl⟩
      | false => exact .inr ⟨hf, rfl⟩

/-- What signing and submitting produces is the given transaction, apart from signatures and output ids. -/
theorem signSubmit_produces {W : World} {w : Wallets} {t0 t : Tx} (h : Produces (W.signSubmit w t0) t) : bare t = bare t0 := by
  rcases signSubmit_spec _ (rfl : W.signSubmit w t0 = _) with ⟨e, ho⟩ | ⟨t1, _, hb, ⟨_, ho⟩ | ⟨_, ho⟩⟩
  · rw [ho] at h
    rcases h with h | ⟨b, h⟩ <;> cases h
  · rw [ho] at h
    rcases h with h | ⟨b, h⟩
    · simp only [List.mem_singleton] at h; rw [h]; exact hb
    · simp only [bind, Except.bind] at h
      split at h
      · cases h
      · rename_i t2 h2
        cases h
        rw [afterPost_bare h2, hb]
  · rw [ho] at h
    rcases h with h | ⟨b, h⟩
    · cases h
    · cases h; exact hb

theorem ofRes_produces {α : Type} {r : Res α} {f : α → Outcome (Tx × Bool)} {t : Tx} (h : Produces (Outcome.ofRes r f) t) : ∃ a, r = .ok a ∧ Produces (f a) t := by
  cases r with
  | error e => rcases h with h | ⟨b, h⟩ <;> cases h
  | ok a => exact ⟨a, rfl, h⟩

end TF.Props
