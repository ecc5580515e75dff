import Verif.Props.Swap
import Verif.Props.SignForeign
import Verif.Props.Client
/-! # Atomic swaps: results (C88 – C91) -/
namespace TF.Props
open TF Spec

/-! ## C88 -/

/-- What `fillIds` leaves alone and what it fills in. -/
theorem fillIds_facts {H : Bytes → Bytes} : ∀ {n i : Nat} {v : TxV1} {t' : Tx}, fillIds H i n (.v1 v) = .ok t' → v.legacy = false →
    ∃ v', t' = .v1 v' ∧ v'.legacy = false ∧ t'.idInput H = (Tx.v1 v).idInput H ∧ v'.coinInputs = v.coinInputs ∧ SameSigned H (.v1 v) t' ∧
      (∀ j, j < i → v'.coinOutputs[j]? = v.coinOutputs[j]?) ∧
      ∀ j co, i ≤ j → j < i + n → v'.coinOutputs[j]? = some co → NetworkOutputId H (.v1 v) j co.id := by
  intro n
  induction n with
  | zero => intro i v t' h hl; cases h; exact ⟨v, rfl, hl, rfl, rfl, .refl _ _, fun _ _ => rfl, fun j _ h1 h2 => by omega⟩
  | succ n ih =>
    intro i v t' h hl
    simp only [fillIds, bind, Except.bind] at h
    split at h
    · cases h
    · rename_i id hid
      have hl' : ¬ IsLegacy (.v1 v) := by simp [IsLegacy, hl]
      obtain ⟨v', rfl, g1, g2, g3, g4, g5, g6⟩ := ih (v := { v with coinOutputs := setIdAt v.coinOutputs i id }) h hl
      refine ⟨v', rfl, g1, g2.trans (setOutputId_idInput H (.v1 v) i id), g3, (setOutputId_same (H := H) (.v1 v) hl' i id).trans g4, ?_, ?_⟩
      · intro j hj
        rw [g5 j (by omega)]
        show (setIdAt _ _ _)[j]? = _
        rw [getElem?_setIdAt, if_neg (by omega)]
      · intro j co h1 h2 hj
        by_cases e : j = i
        · subst e
          rw [g5 j (by omega)] at hj
          change (setIdAt _ _ _)[j]? = _ at hj
          rw [getElem?_setIdAt, if_pos rfl] at hj
          obtain ⟨co', _, rfl⟩ := Option.map_eq_some_iff.1 hj
          exact coinOutputId_network hid
        · have := g6 j co (by omega) (by omega) hj
          obtain ⟨b, hb, hh⟩ := this
          exact ⟨b, by rw [← hb]; exact (setOutputId_idInput H (.v1 v) i id).symm, hh⟩

/-- How a contract is created, with everything the result depends on. -/
theorem createContract_cases {W : SwapWorld} {r : Recipient} {amt : CVal} {time : LockVal} {src : Source} {refund : Recipient} {data : DataArg}
    {hash : Bytes} {submit : Bool} (o : Outcome (Tx × Bool)) (ho : W.createContract r amt time src refund data hash submit = o) :
    (∃ e, o = ⟨[], .error e⟩) ∨ ∃ a w t0 t1 t, W.swapAmount amt = .ok a ∧ W.balance = .ok w ∧ W.contractTx w r a time src refund data hash = .ok t0 ∧
      W.signNew t0 = .ok t1 ∧ fillIds W.H 0 t1.coinOutputs.length t1 = .ok t ∧ o = W.submitContract w t submit := by
  subst ho
  unfold SwapWorld.createContract
  cases h1 : W.swapAmount amt with
  | error e => exact .inl ⟨e, rfl⟩
  | ok a =>
    cases h2 : W.balance with
    | error e => exact .inl ⟨e, rfl⟩
    | ok w =>
      cases h3 : W.contractTx w r a time src refund data hash with
      | error e => exact .inl ⟨e, by simp only [Outcome.ofRes, h3]⟩
      | ok t0 =>
        cases h4 : W.signNew t0 with
        | error e => exact .inl ⟨e, by simp only [Outcome.ofRes, h3, h4]⟩
        | ok t1 =>
          cases h5 : fillIds W.H 0 t1.coinOutputs.length t1 with
          | error e => exact .inl ⟨e, by simp only [Outcome.ofRes, h3, h4, h5]⟩
          | ok t => exact .inr ⟨a, w, t0, t1, t, rfl, rfl, h3, h4, h5, by simp only [Outcome.ofRes, h3, h4, h5]⟩

/-- The transaction of a new contract is a standard transaction that has no signatures yet. -/
theorem contractTx_new {W : SwapWorld} {w : Wallets} {r : Recipient} {a : Currency} {time : LockVal} {src : Source} {refund : Recipient} {data : DataArg}
    {hash : Bytes} {t : Tx} (h : W.contractTx w r a time src refund data hash = .ok t) :
    Unsigned t ∧ DistinctParties W.H t ∧ ∃ v co l, t = .v1 v ∧ v.legacy = false ∧ v.coinOutputs = co :: l ∧ ∃ s r h T, co.condition = .atomicSwap s r h T := by
  simp only [SwapWorld.contractTx, bind, Except.bind] at h
  split at h
  · cases h
  · split at h
    · cases h
    · rename_i x hx
      obtain ⟨ins, rem, sug⟩ := x
      simp only at h
      split at h
      · cases h
      · split at h
        · cases h
        · split at h
          · cases h
          · split at h
            · cases h
            · split at h
              · cases h
              · cases h
                refine ⟨⟨by simp [IsLegacy], ?_, by simp [selfSignatures], by simp [mintPart]⟩, (fun m e => by cases e), _, _, _, rfl, rfl, rfl, ?_⟩
                · intro l hl
                  cases hl
                  exact fund_fresh hx
                · rename_i hc
                  simp only [contractCondition, bind, Except.bind] at hc
                  split at hc
                  · cases hc
                  · split at hc
                    · cases hc
                    · split at hc
                      · cases hc
                      · split at hc
                        · cases hc
                        · cases hc; exact ⟨_, _, _, _, rfl⟩

theorem bare_v1 {t : Tx} {v : TxV1} (h : bare t = bare (.v1 v)) : ∃ v', t = .v1 v' ∧ v'.legacy = v.legacy ∧ v'.coinOutputs.map CoinOutput.condition = v.coinOutputs.map CoinOutput.condition := by
  cases t <;> simp only [bare, reduceCtorEq] at h
  rename_i v'
  simp only [Tx.v1.injEq, TxV1.mk.injEq] at h
  refine ⟨v', rfl, by simp [h], ?_⟩
  have := congrArg (List.map CoinOutput.condition) h.2.1
  simpa [Function.comp_def, bareOutput] using this

/-- The transaction of a new contract: complete if said so, with the ids filled in. -/
theorem created_facts {W : SwapWorld} {w : Wallets} {r : Recipient} {a : Currency} {time : LockVal} {src : Source} {refund : Recipient} {data : DataArg}
    {hash : Bytes} {t0 t1 t : Tx} (h3 : W.contractTx w r a time src refund data hash = .ok t0) (h4 : W.signNew t0 = .ok t1)
    (h5 : fillIds W.H 0 t1.coinOutputs.length t1 = .ok t) :
    (t.isFulfilled = .ok true → FullySigned W.toWorld t) ∧ ∃ co l, t.coinOutputs = co :: l ∧ NetworkOutputId W.H t 0 co.id ∧
      ∃ s r h T, co.condition = .atomicSwap s r h T := by
  obtain ⟨hu, hd, v, co, l, rfl, hv, hc, hcc⟩ := contractTx_new h3
  have hi := signNew_inv hd hu h4
  obtain ⟨v1, rfl, e1, e2⟩ := bare_v1 hi.bare
  rw [hv] at e1
  have hb := fillIds_bare h5
  obtain ⟨v', rfl, g1, g2, g3, g4, -, g6⟩ := fillIds_facts h5 e1
  constructor
  · intro hf
    have hf1 : (Tx.v1 v1).isFulfilled = .ok true := by
      simp only [Tx.isFulfilled, Tx.coinInputs, g3] at hf
      exact hf
    obtain ⟨⟨ins, hl, hun⟩, hx⟩ := hi.signed hf1 (by simp [Tx.coinInputs])
    refine ⟨⟨ins, ?_, ?_⟩, ⟨by simp [selfSignatures], by simp [mintPart]⟩⟩
    · rw [← hl]; simp [Tx.coinInputs, g3]
    · intro i ci hci
      obtain ⟨co, k1, k2⟩ := hun i ci hci
      exact ⟨co, k1, unlocks_same g4 k2⟩
  · obtain ⟨v'', e, -, e3⟩ := bare_v1 hb
    cases e
    rw [e2, hc] at e3
    have hlen := congrArg List.length e3
    have hlen1 := congrArg List.length e2
    simp only [List.length_map, hc] at hlen hlen1
    cases ho : v'.coinOutputs with
    | nil => rw [ho] at hlen; simp at hlen
    | cons co' l' =>
      rw [ho] at e3
      simp only [List.map_cons, List.cons.injEq] at e3
      refine ⟨co', l', ho, ?_, by rw [e3.1]; exact hcc⟩
      have := g6 0 co' (by omega) (by simp only [Tx.coinOutputs]; rw [hlen1]; simp) (by rw [ho]; rfl)
      obtain ⟨b, hb, hh⟩ := this
      exact ⟨b, by rw [g2]; exact hb, by simpa only [specifierFill, e1, g1] using hh⟩

/-- Every output of the transaction of a new contract has the id the network gives it. -/
theorem created_ids {W : SwapWorld} {w : Wallets} {r : Recipient} {a : Currency} {time : LockVal} {src : Source} {refund : Recipient} {data : DataArg}
    {hash : Bytes} {t0 t1 t : Tx} (h3 : W.contractTx w r a time src refund data hash = .ok t0) (h4 : W.signNew t0 = .ok t1)
    (h5 : fillIds W.H 0 t1.coinOutputs.length t1 = .ok t) : ∀ i co, t.coinOutputs[i]? = some co → NetworkOutputId W.H t i co.id := by
  obtain ⟨hu, hd, v, co, l, rfl, hv, hc, hcc⟩ := contractTx_new h3
  have hi := signNew_inv hd hu h4
  obtain ⟨v1, rfl, e1, e2⟩ := bare_v1 hi.bare
  rw [hv] at e1
  have hb := fillIds_bare h5
  obtain ⟨v', rfl, g1, g2, g3, g4, -, g6⟩ := fillIds_facts h5 e1
  obtain ⟨v'', e, -, e3⟩ := bare_v1 hb
  cases e
  have hlen := congrArg List.length e3
  simp only [List.length_map] at hlen
  intro i co hi'
  have hlt := (List.getElem?_eq_some_iff.1 hi').1
  simp only [Tx.coinOutputs] at hlt hi'
  obtain ⟨b, hb, hh⟩ := g6 i co (Nat.zero_le _) (by simp only [Tx.coinOutputs]; omega) hi'
  exact ⟨b, by rw [g2]; exact hb, by simpa only [specifierFill, e1, g1] using hh⟩

theorem submitContract_cases (W : SwapWorld) (w : Wallets) (t : Tx) (submit : Bool) :
    (∃ e, W.submitContract w t submit = ⟨[], .error e⟩ ∧ submit = true ∧ t.isFulfilled = .error e) ∨
    (W.submitContract w t submit = ⟨[], .ok (t, false)⟩ ∧ (submit = true → t.isFulfilled = .ok false)) ∨
    (submit = true ∧ t.isFulfilled = .ok true ∧ W.submitContract w t submit = ⟨[t], do W.afterCreate w t; return (t, true)⟩) := by
  unfold SwapWorld.submitContract
  cases submit with
  | false => exact .inr (.inl ⟨rfl, by simp⟩)
  | true =>
    cases hf : t.isFulfilled with
    | error e => exact .inl ⟨e, rfl, rfl, rfl⟩
    | ok b =>
      cases b with
      | false => exact .inr (.inl ⟨rfl, fun _ => rfl⟩)
      | true => exact .inr (.inr ⟨rfl, rfl, rfl⟩)

/-- All that can come out of creating a contract. -/
theorem resultOf_cases (W : SwapWorld) (r : Recipient) (amt : CVal) (time : LockVal) (src : Source) (refund : Recipient) (data : DataArg)
    (hash : Bytes) (submit : Bool) (o : Outcome (Contract × Tx × Bool)) (ho : W.resultOf (W.createContract r amt time src refund data hash submit) = o) :
    (∃ e, o = ⟨[], .error e⟩) ∨
    ∃ w t c, W.balance = .ok w ∧ Describes c t ∧ NetworkOutputId W.H t 0 c.id ∧ (t.isFulfilled = .ok true → FullySigned W.toWorld t) ∧
      ((o = ⟨[], .ok (c, t, false)⟩ ∧ (submit = true → t.isFulfilled = .ok false)) ∨
       (submit = true ∧ t.isFulfilled = .ok true ∧ o.posted = [t] ∧ (o.result = .ok (c, t, true) ∨
          ∃ e, o.result = .error e ∧ (W.afterCreate w t = .error e ∨ W.chainTime = .error e)))) := by
  subst ho
  rcases createContract_cases _ (rfl : W.createContract r amt time src refund data hash submit = _) with ⟨e, h⟩ | ⟨a, w, t0, t1, t, h1, h2, h3, h4, h5, h⟩
  · exact .inl ⟨e, by rw [h]; rfl⟩
  · rw [h]
    obtain ⟨hsig, ⟨v, cond, id⟩, l, ho, hid, s, rc, hh, T, rfl⟩ := created_facts h3 h4 h5
    have hres : ∀ (o' : Outcome (Tx × Bool)) b, o'.result = .ok (t, b) → W.resultOf o' = ⟨o'.posted, W.chainTime.map fun _ => (⟨id, s, rc, hh, T, v, true⟩, t, b)⟩ := by
      intro o' b h
      simp only [SwapWorld.resultOf, h, ho, bind, Except.bind, Contract.ofOutput, pure, Except.pure]
      cases W.chainTime <;> rfl
    have herr : ∀ (o' : Outcome (Tx × Bool)) e, o'.result = .error e → W.resultOf o' = ⟨o'.posted, .error e⟩ := by
      intro o' e h
      simp only [SwapWorld.resultOf, h, bind, Except.bind]
    rcases submitContract_cases W w t submit with ⟨e, hs, -, -⟩ | ⟨hs, hb⟩ | ⟨hb, hf, hs⟩
    · exact .inl ⟨e, by rw [hs]; exact herr _ e rfl⟩
    · rw [hs, hres _ false rfl]
      cases hct : W.chainTime with
      | error e => exact .inl ⟨e, rfl⟩
      | ok now => exact .inr ⟨w, t, ⟨id, s, rc, hh, T, v, true⟩, h2, ⟨_, l, ho, rfl, rfl, rfl⟩, hid, hsig, .inl ⟨rfl, hb⟩⟩
    · refine .inr ⟨w, t, ⟨id, s, rc, hh, T, v, true⟩, h2, ⟨_, l, ho, rfl, rfl, rfl⟩, hid, hsig, .inr ⟨hb, hf, by rw [hs]; rfl, ?_⟩⟩
      rw [hs]
      cases ha : W.afterCreate w t with
      | error e => exact .inr ⟨e, by rw [herr _ e rfl], .inl rfl⟩
      | ok x =>
        rw [hres _ true rfl]
        cases hct : W.chainTime with
        | error e => exact .inr ⟨e, rfl, .inr rfl⟩
        | ok now => exact .inl rfl

/-- **C88**. For every request, wallet and explorer, with and without submission. -/
theorem C88_returned (W : SwapWorld) (secret : Bytes) (hash : BVal) (r : Recipient) (amt : CVal) (time : LockVal) (src : Source) (refund : Recipient)
    (data : DataArg) (submit : Bool) :
    ReturnsContract W.toWorld (W.initiate secret r amt time src refund data submit) ∧
    ReturnsContract W.toWorld (W.participate r amt hash time src refund data submit) := by
  have key : ∀ h, ReturnsContract W.toWorld (W.resultOf (W.createContract r amt time src refund data h submit)) := by
    intro h c t b hr
    rcases resultOf_cases W r amt time src refund data h submit _ rfl with ⟨e, ho⟩ | ⟨w, t', c', h1, h2, h3, h4, ⟨ho, h5⟩ | ⟨h5, h6, h7, h8⟩⟩
    · rw [ho] at hr; cases hr
    · rw [ho] at hr ⊢; cases hr; exact ⟨h2, h3, rfl⟩
    · rcases h8 with h8 | ⟨e, h8, -⟩
      · rw [h8] at hr; cases hr; exact ⟨h2, h3, h7⟩
      · rw [h8] at hr; cases hr
  constructor
  · intro c t b hr
    unfold SwapWorld.initiate at hr ⊢
    cases hx : secretHashNew (.bytes (W.sha secret)) with
    | error e => rw [hx] at hr; cases hr
    | ok x => rw [hx] at hr; exact key x c t b hr
  · intro c t b hr
    unfold SwapWorld.participate at hr ⊢
    cases hx : secretHashNew hash with
    | error e => rw [hx] at hr; cases hr
    | ok x => rw [hx] at hr; exact key x c t b hr

/-- **C88** (submission). When asked to submit, exactly a completely signed transaction is submitted; when asked not to, none is. -/
theorem C88_submits (W : SwapWorld) (secret : Bytes) (hash : BVal) (r : Recipient) (amt : CVal) (time : LockVal) (src : Source) (refund : Recipient)
    (data : DataArg) :
    SubmitsContract W.toWorld (W.initiate secret r amt time src refund data true) ∧
    SubmitsContract W.toWorld (W.participate r amt hash time src refund data true) ∧
    (W.initiate secret r amt time src refund data false).posted = [] ∧ (W.participate r amt hash time src refund data false).posted = [] := by
  have key : ∀ h, SubmitsContract W.toWorld (W.resultOf (W.createContract r amt time src refund data h true)) := by
    intro h
    rcases resultOf_cases W r amt time src refund data h true _ rfl with ⟨e, ho⟩ | ⟨w, t', c', h1, h2, h3, h4, ⟨ho, h5⟩ | ⟨h5, h6, h7, h8⟩⟩
    · rw [ho]; exact ⟨by simp, by simp, by simp⟩
    · rw [ho]
      refine ⟨by simp, by simp, fun c t hr hs => ?_⟩
      cases hr
      exact signed_fulfilled hs (h5 rfl)
    · refine ⟨by rw [h7]; simp, fun t ht => ?_, fun c t hr => ?_⟩
      · rw [h7, List.mem_singleton] at ht; subst ht; exact h4 h6
      · rcases h8 with h8 | ⟨e, h8, -⟩ <;> rw [h8] at hr <;> cases hr
  have no : ∀ h, (W.resultOf (W.createContract r amt time src refund data h false)).posted = [] := by
    intro h
    rcases resultOf_cases W r amt time src refund data h false _ rfl with ⟨e, ho⟩ | ⟨w, t', c', h1, h2, h3, h4, ⟨ho, h5⟩ | ⟨h5, h6, h7, h8⟩⟩
    · rw [ho]
    · rw [ho]
    · cases h5
  have err : ∀ e, SubmitsContract W.toWorld ⟨[], .error e⟩ := fun e => ⟨by simp, by simp, by simp⟩
  unfold SwapWorld.initiate SwapWorld.participate
  refine ⟨?_, ?_, ?_, ?_⟩
  · cases secretHashNew (.bytes (W.sha secret)) with
    | error e => exact err e
    | ok x => exact key x
  · cases secretHashNew hash with
    | error e => exact err e
    | ok x => exact key x
  · cases secretHashNew (.bytes (W.sha secret)) with
    | error e => rfl
    | ok x => exact no x
  · cases secretHashNew hash with
    | error e => rfl
    | ok x => exact no x

/-- The demo wallet, at a given time of the chain. -/
def swapDemo (now : Res Int) : SwapWorld where
  toWorld := { demoWorld with chainTime := now }
  sha := toyHash

/-- The other owner of the multi-signature wallet. -/
def swapOther : World := { demoWorld with
  keys := { seed := [], pairs := [((addrOf key2).str toyHash, key2)], primary := (addrOf key2).str toyHash }
  addresses := .ok [(addrOf key2).str toyHash] }

/-- What the outcome shows: the number of posted transactions, the amount of the contract and the flag. -/
def dealt (o : Outcome (Contract × Tx × Bool)) : Nat × Res (Nat × Bool) := (o.posted.length, o.result.map fun x => (amount x.1.amount, x.2.2))

example : dealt ((swapDemo (.ok 1400000000)).initiate (List.replicate 32 5) (.uh (addrOf key2)) (.int 2) (.int 1500000000) .none .none .none true) =
    (1, .ok (2000000000, true)) := by decide +kernel
example : dealt ((swapDemo (.ok 1400000000)).initiate (List.replicate 32 5) (.uh (addrOf key2)) (.int 2) (.int 1500000000) .none .none .none false) =
    (0, .ok (2000000000, false)) := by decide +kernel
example : dealt ((swapDemo (.ok 1400000000)).participate (.uh (addrOf key2)) (.int 2) (.bytes (List.replicate 32 5)) (.int 1500000000) .none .none .none true) =
    (1, .ok (2000000000, true)) := by decide +kernel
example : dealt ((swapDemo (.ok 1400000000)).participate (.uh (addrOf key2)) (.int 2) (.bytes (List.replicate 32 5)) (.int 1500000000) (.one (.uh msAddr)) .none .none true) =
    (0, .ok (2000000000, false)) := by decide +kernel

/-- **C88 is false** when signatures of others are still missing: the id in the returned contract depends on the signatures. Once the other owner of
a multi-signature wallet has signed, the transaction that is submitted gives its first output another id, so the returned contract refers to nothing. -/
theorem C88_id_false : ∃ (W : SwapWorld) (W' : World) (r : Recipient) (amt : CVal) (hash : BVal) (time : LockVal) (src : Source) (c : Contract) (t t' : Tx),
    (W.participate r amt hash time src .none .none true).result = .ok (c, t, false) ∧ (W'.transactionSign t true).posted = [t'] ∧ W'.H = W.H ∧
    bare t' = bare t ∧ ¬ NetworkOutputId W.H t' 0 c.id := by
  let o := (swapDemo (.ok 1400000000)).participate (.uh (addrOf key2)) (.int 2) (.bytes (List.replicate 32 5)) (.int 1500000000) (.one (.uh msAddr)) .none .none true
  let idOf (t : Tx) : Res Bytes := (t.idInput toyHash).map fun b => toyHash (utf8 "coin output".toList ++ List.replicate (specifierFill t) 0 ++ b ++ toBytesLE 8 0)
  have key : o.result.map (fun x => (x.2.2, (swapOther.transactionSign x.2.1 true).posted.map fun t' => (decide (bare t' = bare x.2.1), decide (idOf t' = .ok x.1.id.value)))) =
      .ok (false, [(true, false)]) := by decide +kernel
  cases ho : o.result with
  | error e => rw [ho] at key; cases key
  | ok x =>
    obtain ⟨c, t, b⟩ := x
    rw [ho] at key
    simp only [Except.map, Except.ok.injEq, Prod.mk.injEq] at key
    obtain ⟨rfl, k2⟩ := key
    cases hp : (swapOther.transactionSign t true).posted with
    | nil => rw [hp] at k2; cases k2
    | cons t' l =>
      rw [hp] at k2
      simp only [List.map_cons, List.cons.injEq, List.map_eq_nil_iff, Prod.mk.injEq, decide_eq_true_eq, decide_eq_false_iff_not] at k2
      obtain ⟨⟨k3, k4⟩, rfl⟩ := k2
      refine ⟨swapDemo (.ok 1400000000), swapOther, _, _, _, _, _, c, t, t', ho, hp, rfl, k3, ?_⟩
      rintro ⟨b, hb, hv⟩
      apply k4
      show (t'.idInput toyHash).map _ = _
      rw [show t'.idInput toyHash = .ok b from hb, hv]
      rfl

/-! ## C86 -/

theorem contract_ids (W : SwapWorld) (r : Recipient) (amt : CVal) (time : LockVal) (src : Source) (refund : Recipient) (data : DataArg) (hash : Bytes) (submit : Bool)
    (c : Contract) (t : Tx) (h : (W.resultOf (W.createContract r amt time src refund data hash submit)).result = .ok (c, t, true)) :
    (W.resultOf (W.createContract r amt time src refund data hash submit)).posted = [t] ∧ ∀ i co, t.coinOutputs[i]? = some co → NetworkOutputId W.H t i co.id := by
  rcases createContract_cases _ (rfl : W.createContract r amt time src refund data hash submit = _) with ⟨e, ho⟩ | ⟨a, w, t0, t1, t2, h1, h2, h3, h4, h5, ho⟩
  · rw [ho] at h; cases h
  · rw [ho] at h ⊢
    have e : (W.submitContract w t2 submit).result = .ok (t, true) := by
      simp only [SwapWorld.resultOf] at h
      obtain ⟨⟨t', b⟩, ht, h⟩ := bind_ok h
      simp only at h
      split at h
      · cases h
      · obtain ⟨_, _, h⟩ := bind_ok h
        obtain ⟨c', _, h⟩ := bind_ok h
        cases h
        exact ht
    rcases submitContract_cases W w t2 submit with ⟨e', hs, -, -⟩ | ⟨hs, hb⟩ | ⟨hb, hf, hs⟩
    · rw [hs] at e; cases e
    · rw [hs] at e; cases e
    · rw [hs] at e ⊢
      obtain ⟨_, _, e⟩ := bind_ok e
      cases e
      exact ⟨rfl, created_ids h3 h4 h5⟩

/-- **C86** (`atomicswap.initiate`). Every output of the submitted transaction has its id. -/
theorem C86_initiate (W : SwapWorld) (secret : Bytes) (r : Recipient) (amt : CVal) (time : LockVal) (src : Source) (refund : Recipient) (data : DataArg) (submit : Bool)
    (c : Contract) (t : Tx) (h : (W.initiate secret r amt time src refund data submit).result = .ok (c, t, true)) :
    (W.initiate secret r amt time src refund data submit).posted = [t] ∧ ∀ i co, t.coinOutputs[i]? = some co → NetworkOutputId W.H t i co.id := by
  unfold SwapWorld.initiate at h ⊢
  cases hx : secretHashNew (.bytes (W.sha secret)) with
  | error e => rw [hx] at h; cases h
  | ok x => rw [hx] at h; exact contract_ids W r amt time src refund data x submit c t h

/-- **C86** (`atomicswap.participate`). -/
theorem C86_participate (W : SwapWorld) (r : Recipient) (amt : CVal) (hash : BVal) (time : LockVal) (src : Source) (refund : Recipient) (data : DataArg) (submit : Bool)
    (c : Contract) (t : Tx) (h : (W.participate r amt hash time src refund data submit).result = .ok (c, t, true)) :
    (W.participate r amt hash time src refund data submit).posted = [t] ∧ ∀ i co, t.coinOutputs[i]? = some co → NetworkOutputId W.H t i co.id := by
  unfold SwapWorld.participate at h ⊢
  cases hx : secretHashNew hash with
  | error e => rw [hx] at h; cases h
  | ok x => rw [hx] at h; exact contract_ids W r amt time src refund data x submit c t h

theorem claim_ids {W : SwapWorld} {c : Contract} {asSender : Bool} {secret : Option Bytes} {data : DataArg} {t : Tx}
    (h : (Outcome.ofRes (W.claim c asSender secret data) W.claimSubmit).result = .ok t) :
    ∃ t', (Outcome.ofRes (W.claim c asSender secret data) W.claimSubmit).posted = [t'] ∧ ∀ i co u addrs, t.coinOutputs[i]? = some co → co.condition.unlockhash W.H = .ok u →
      W.addresses = .ok addrs → u.str W.H ∈ addrs → NetworkOutputId W.H t' i co.id := by
  obtain ⟨t0, h0, h⟩ := ofRes_result h
  rw [h0]
  simp only [Outcome.ofRes]
  unfold SwapWorld.claimSubmit at h ⊢
  obtain ⟨t1, h1, h⟩ := ofRes_result h
  obtain ⟨ok, h2, h⟩ := ofRes_result h
  rw [h1]
  simp only [Outcome.ofRes, h2]
  cases ok with
  | false => cases h
  | true =>
    refine ⟨t1, rfl, ?_⟩
    change W.afterClaim t1 = .ok t at h
    unfold SwapWorld.afterClaim at h
    obtain ⟨_, _, h⟩ := bind_ok h
    obtain ⟨w, hw, h⟩ := bind_ok h
    obtain ⟨addrs, ha, h⟩ := bind_ok h
    obtain ⟨⟨t2, w2⟩, hc, h⟩ := bind_ok h
    cases h
    intro i co u addrs' hi hu ha' hin
    rw [ha] at ha'; cases ha'
    have hv : ∃ v, t1 = .v1 v := by
      have hb := signNew_bare h1
      unfold SwapWorld.claim at h0
      obtain ⟨_, _, h0⟩ := bind_ok h0
      obtain ⟨_, _, h0⟩ := bind_ok h0
      obtain ⟨_, _, h0⟩ := bind_ok h0
      cases h0
      obtain ⟨v, e, -⟩ := bare_v1 hb
      exact ⟨v, e⟩
    obtain ⟨v, rfl⟩ := hv
    exact (claimOutputs_ids hc (by simp) rfl).2.2 i co u (Nat.zero_le _) hi hu hin

/-- **C86** (`atomicswap.redeem`). -/
theorem C86_redeem (W : SwapWorld) (id secret : BVal) (data : DataArg) (t : Tx) (h : (W.redeem id secret data).result = .ok t) :
    ∃ t', (W.redeem id secret data).posted = [t'] ∧ ∀ i co u addrs, t.coinOutputs[i]? = some co → co.condition.unlockhash W.H = .ok u →
      W.addresses = .ok addrs → u.str W.H ∈ addrs → NetworkOutputId W.H t' i co.id := by
  unfold SwapWorld.redeem at h ⊢
  obtain ⟨c, h1, h⟩ := ofRes_result h
  obtain ⟨_, h2, h⟩ := ofRes_result h
  obtain ⟨s, h3, h⟩ := ofRes_result h
  rw [h1]; simp only [Outcome.ofRes, h2, h3]
  exact claim_ids h

/-- **C86** (`atomicswap.refund`). -/
theorem C86_refund (W : SwapWorld) (id : BVal) (data : DataArg) (t : Tx) (h : (W.refund id data).result = .ok t) :
    ∃ t', (W.refund id data).posted = [t'] ∧ ∀ i co u addrs, t.coinOutputs[i]? = some co → co.condition.unlockhash W.H = .ok u →
      W.addresses = .ok addrs → u.str W.H ∈ addrs → NetworkOutputId W.H t' i co.id := by
  unfold SwapWorld.refund at h ⊢
  obtain ⟨c, h1, h⟩ := ofRes_result h
  obtain ⟨_, h2, h⟩ := ofRes_result h
  rw [h1]; simp only [Outcome.ofRes, h2]
  exact claim_ids h

/-! ## C91 -/

theorem addOutputs_ok {W : World} {w0 : Wallets} {t0 : Tx} (hn : ¬ Trouble W w0 t0) {addrs : List Str} {l : List CoinOutput} :
    ∀ {w : Wallets}, (∀ co ∈ l, co ∈ t0.coinOutputs) → (∀ b ∈ w0.wallets.map (·.1), b ∈ w.wallets.map (·.1)) →
      ∃ x, addOutputs W.H addrs l w = .ok x := by
  induction l with
  | nil => intro w _ _; exact ⟨_, rfl⟩
  | cons co l ih =>
    intro w hc hs
    obtain ⟨u, hu, h3⟩ := trouble_or_adds hn (.creates (hc co (by simp)))
    simp only [addOutputs, bind, Except.bind, hu]
    split
    · obtain ⟨w1, h1⟩ := addOrRaise_ok (w := w) (o := co) (c := false) (s := false) hu fun h => ⟨(h3 h).1, hs _ (h3 h).2⟩
      simp only [h1]
      exact ih (fun c h => hc c (by simp [h])) (fun b hb => addOrRaise_names h1 b (hs b hb))
    · exact ih (fun c h => hc c (by simp [h])) hs

theorem afterCreate_ok {W : SwapWorld} {w : Wallets} {t : Tx} (hn : ¬ Trouble W.toWorld w t) : W.afterCreate w t = .ok () := by
  unfold SwapWorld.afterCreate
  cases hp : W.put t with
  | error e => exact absurd (.put e hp) hn
  | ok h =>
    obtain ⟨w1, h1⟩ := spendInputs_ok hn (l := t.coinInputs.getD []) (w := w) (by
      intro ci hci
      cases hl : t.coinInputs with
      | none => rw [hl] at hci; simp at hci
      | some l => rw [hl] at hci; exact .spends l ci hl hci rfl) fun b hb => hb
    cases ha : W.addresses with
    | error e => exact absurd (.addresses e ha) hn
    | ok addrs =>
      obtain ⟨x, h2⟩ := addOutputs_ok hn (addrs := addrs ++ w1.wallets.map (·.1)) (l := t.coinOutputs) (w := w1) (fun co h => h) (spendInputs_names h1)
      simp only [bind, Except.bind, h1, h2, pure, Except.pure]

/-- **C91** (what holds). If `initiate` raises, so that the secret is lost, nothing was submitted; unless something listed in `Trouble` went wrong
after the submission, or the time of the chain could not be determined. -/
theorem C91_secret_partial (W : SwapWorld) (secret : Bytes) (r : Recipient) (amt : CVal) (time : LockVal) (src : Source) (refund : Recipient)
    (data : DataArg) (submit : Bool) (e : Err) (he : (W.initiate secret r amt time src refund data submit).result = .error e) :
    (W.initiate secret r amt time src refund data submit).posted = [] ∨
    ∃ t w, (W.initiate secret r amt time src refund data submit).posted = [t] ∧ W.balance = .ok w ∧ (Trouble W.toWorld w t ∨ W.chainTime = .error e) := by
  unfold SwapWorld.initiate at he ⊢
  cases hx : secretHashNew (.bytes (W.sha secret)) with
  | error e => exact .inl rfl
  | ok x =>
    rw [hx] at he
    simp only [Outcome.ofRes] at he ⊢
    rcases resultOf_cases W r amt time src refund data x submit _ rfl with ⟨e, ho⟩ | ⟨w, t', c', h1, h2, h3, h4, ⟨ho, h5⟩ | ⟨h5, h6, h7, h8⟩⟩
    · rw [ho]; exact .inl rfl
    · rw [ho] at he; cases he
    · refine .inr ⟨t', w, h7, h1, ?_⟩
      rcases h8 with h8 | ⟨e', h8, h9⟩
      · rw [h8] at he; cases he
      · rw [h8] at he; cases he
        rcases h9 with h9 | h9
        · exact .inl (Classical.byContradiction fun hn => by rw [afterCreate_ok hn] at h9; cases h9)
        · exact .inr h9

/-- **C91 is false**: the explorers accept the transaction but then do not tell the time. The money is in the contract; the random secret is gone. -/
theorem C91_secret_false : ∃ (W : SwapWorld) (secret : Bytes) (r : Recipient) (amt : CVal) (time : LockVal) (e : Err), (∀ t, (W.put t).isOk) ∧ W.addresses.isOk ∧
    (W.initiate secret r amt time .none .none .none true).posted.length = 1 ∧ (W.initiate secret r amt time .none .none .none true).result.map (fun _ => ()) = .error e :=
  ⟨swapDemo (.error .explorerNotAvailable), List.replicate 32 5, .uh (addrOf key2), .int 2, .int 1500000000, .explorerNotAvailable, fun _ => rfl, rfl,
    by decide +kernel, by decide +kernel⟩

/-- A refused request: nothing is submitted. -/
example : dealt ((swapDemo (.ok 1400000000)).initiate (List.replicate 32 5) (.uh (addrOf key2)) (.int 2000) (.int 1500000000) .none .none .none true) =
    (0, .error .insufficientFunds) := by decide +kernel

/-! ## C89 -/

theorem checkAmount_ok {c : Contract} {amt : CVal} (hg : GoodCurrency c.amount) (hv : ∀ x, amt = .cur x → GoodCurrency x) :
    c.checkAmount amt = .ok () ↔ (amt ≠ .none → ∃ a, Currency.set amt = .ok a ∧ amount a = amount c.amount) := by
  unfold Contract.checkAmount
  split
  · simp
  · rename_i hne
    simp only [bind, Except.bind]
    cases ha : Currency.set amt with
    | error e => simpa using hne
    | ok a =>
      have hga := currency_set_good hv ha
      simp only
      cases he : a.eqv c.amount with
      | true => simp [pure, Except.pure, (eqv_amount hga hg).1 he]
      | false =>
        have := (eqv_amount hga hg).not.1 (by simp [he])
        simp [throw, throwThe, MonadExceptOf.throw, this]
        exact hne

theorem checkSecretHash_ok {c : Contract} {hash : BVal} : c.checkSecretHash hash = .ok () ↔ (hash ≠ .none → ∃ h, Gives hash h ∧ c.secretHash = some h) := by
  unfold Contract.checkSecretHash
  split
  · simp
  · rename_i hne
    simp only [bind, Except.bind]
    cases hh : secretHashNew hash with
    | error e =>
      simp only [reduceCtorEq, ne_eq, false_iff, Classical.not_imp]
      refine ⟨hne, ?_⟩
      rintro ⟨h, h1, -⟩
      rw [secretHashNew_ok.2 h1] at hh; cases hh
    | ok h =>
      have h1 := secretHashNew_ok.1 hh
      have uniq : ∀ h', Gives hash h' → h' = h := fun h' g => by have := secretHashNew_ok.2 g; rw [hh] at this; cases this; rfl
      cases hc : c.secretHash with
      | none =>
        simp [hashedSecretData, BinData.eq]
        exact hne
      | some x =>
        simp only [hashedSecretData, BinData.eq, ne_eq, not_true_eq_false, if_false]
        by_cases e : h = x
        · simp [e, pure, Except.pure]; exact fun _ => e ▸ h1
        · simp only [e, decide_false, Bool.not_false, if_true, throw, throwThe, MonadExceptOf.throw, reduceCtorEq, false_iff, Classical.not_imp]
          refine ⟨hne, ?_⟩
          rintro ⟨h', g, e'⟩
          cases e'
          exact e (uniq _ g).symm

theorem refundTimeOk_iff {c : Contract} {now T : Int} : c.refundTimeOk now T = true ↔ if now < T then T ≤ c.lockTime else c.lockTime ≤ now := by
  unfold Contract.refundTimeOk
  by_cases h1 : now < T
  · have e : ¬ max 0 (T - now) ≤ 0 := by omega
    by_cases h2 : now ≥ c.lockTime
    · simp only [if_neg e, if_pos h1, if_pos h2, decide_eq_true_eq]; omega
    · simp only [if_neg e, if_pos h1, if_neg h2, decide_eq_true_eq]; omega
  · have e : max 0 (T - now) ≤ 0 := by omega
    by_cases h2 : now ≥ c.lockTime
    · simp only [if_pos e, if_neg h1, if_pos h2, decide_true, true_iff]; exact h2
    · simp only [if_pos e, if_neg h1, if_neg h2, decide_eq_true_eq]; omega

theorem checkRefundTime_ok {W : SwapWorld} {c : Contract} {min : LockVal} : W.checkRefundTime c min = .ok () ↔
    (min ≠ .none → ∃ now T, W.chainTime = .ok now ∧ (min = .int T ∨ min = .computed T) ∧ if now < T then T ≤ c.lockTime else c.lockTime ≤ now) := by
  unfold SwapWorld.checkRefundTime
  split
  · simp
  · rename_i hne
    simp only [bind, Except.bind]
    cases hn : W.chainTime with
    | error e => simp; exact hne
    | ok now =>
      simp only
      cases ht : refundTime min with
      | error e =>
        simp only [reduceCtorEq, false_iff]
        intro h
        obtain ⟨_, T, -, h1 | h1, -⟩ := h hne <;> subst h1 <;> cases ht
      | ok T =>
        have hT : min = .int T ∨ min = .computed T := by
          unfold refundTime at ht
          split at ht <;> cases ht
          · exact .inr rfl
          · exact .inl rfl
        simp only
        cases ho : c.refundTimeOk now T with
        | true =>
          simp only [Bool.not_true, Bool.false_eq_true, if_false, pure, Except.pure, true_iff]
          exact fun _ => ⟨now, T, rfl, hT, refundTimeOk_iff.1 ho⟩
        | false =>
          simp only [Bool.not_false, if_true, throw, throwThe, MonadExceptOf.throw, reduceCtorEq, false_iff]
          intro h
          obtain ⟨now', T', h1, h2, h3⟩ := h hne
          cases h1
          have : T' = T := by
            rcases hT with e | e <;> rcases h2 with e' | e' <;> rw [e] at e' <;> cases e' <;> rfl
          subst this
          rw [refundTimeOk_iff.2 h3] at ho
          cases ho

theorem addressIn_total {H : Bytes → Bytes} {u : UnlockHash} : ∀ {l : List Str}, (∀ a ∈ l, ∃ v, Names H a v) →
    ∃ b, addressIn H u l = .ok b ∧ ((∃ a ∈ l, Names H a u) → b = true) := by
  intro l
  induction l with
  | nil => intro _; exact ⟨false, rfl, by simp⟩
  | cons s l ih =>
    intro h
    obtain ⟨v, hv⟩ := h s (by simp)
    obtain ⟨b, hb, hi⟩ := ih fun a ha => h a (by simp [ha])
    simp only [addressIn, bind, Except.bind, show UnlockHash.fromJson H (.str s) = .ok v from hv]
    by_cases e : v.type = u.type ∧ v.hash = u.hash
    · rw [if_pos e]; exact ⟨true, rfl, fun _ => rfl⟩
    · rw [if_neg e]
      refine ⟨b, hb, ?_⟩
      rintro ⟨a, ha, hn⟩
      rcases List.mem_cons.1 ha with rfl | ha
      · unfold Names at hn hv
        rw [hv] at hn; cases hn; exact absurd ⟨rfl, rfl⟩ e
      · exact hi ⟨a, ha, hn⟩

theorem checkParty_ok {W : SwapWorld} {u : UnlockHash} {asked : Bool} : W.checkParty u asked = .ok () → asked = true → Holds W.toWorld u := by
  intro h ha
  subst ha
  simp only [SwapWorld.checkParty, if_true, bind, Except.bind] at h
  split at h
  · cases h
  · rename_i addrs haddr
    split at h
    · cases h
    · rename_i b hb
      cases b with
      | false => simp [throw, throwThe, MonadExceptOf.throw] at h
      | true => exact ⟨addrs, haddr, addressIn_true hb⟩

theorem checkParty_holds {W : SwapWorld} (hr : Readable W.toWorld) {u : UnlockHash} {asked : Bool} (h : asked = true → Holds W.toWorld u) :
    W.checkParty u asked = .ok () := by
  cases asked with
  | false => rfl
  | true =>
    obtain ⟨addrs, h1, h2⟩ := h rfl
    obtain ⟨b, h3, h4⟩ := addressIn_total (u := u) (hr addrs h1)
    simp only [SwapWorld.checkParty, if_true, bind, Except.bind, h1, h3, h4 h2, Bool.not_true, Bool.false_eq_true, if_false, pure, Except.pure]

theorem verify_ok {W : SwapWorld} {id : BVal} {amt : CVal} {hash : BVal} {min : LockVal} {sender receiver : Bool} {given : Option Contract} {c : Contract}
    (hg : GoodCurrency c.amount) (hv : ∀ x, amt = .cur x → GoodCurrency x) (h : W.verify id amt hash min sender receiver given = .ok c) :
    W.toVerify id given = .ok c ∧ Passes W c amt hash min sender receiver := by
  simp only [SwapWorld.verify, bind, Except.bind] at h
  split at h
  · cases h
  · rename_i c' h0
    split at h
    · cases h
    · rename_i h1
      split at h
      · cases h
      · rename_i h2
        split at h
        · cases h
        · rename_i h3
          split at h
          · cases h
          · rename_i h4
            split at h
            · cases h
            · rename_i h5
              cases h
              exact ⟨h0, (checkAmount_ok hg hv).1 h1, checkSecretHash_ok.1 h2, checkRefundTime_ok.1 h3, checkParty_ok h4, checkParty_ok h5⟩

/-- **C89** (fetched contracts). `verify` returns only a contract the explorers report as an unspent output with this id, and only if it has everything
asked for (where `min_refund_time` is a point in time). -/
theorem C89_fetched_partial (W : SwapWorld) (id : BVal) (amt : CVal) (hash : BVal) (min : LockVal) (sender receiver : Bool) (c : Contract)
    (hg : GoodCurrency c.amount) (hv : ∀ x, amt = .cur x → GoodCurrency x) (h : W.verify id amt hash min sender receiver none = .ok c) :
    Reported W id c ∧ c.unspent = true ∧ Passes W c amt hash min sender receiver := by
  obtain ⟨h1, h2⟩ := verify_ok hg hv h
  obtain ⟨h3, h4, -⟩ := fetch_ok h1
  exact ⟨h3, h4, h2⟩

theorem bin_eq_true {a b : BinData} : a.eq b = .ok true ↔ a.fixed = b.fixed ∧ a.enc = b.enc ∧ a.value = b.value := by
  unfold BinData.eq
  by_cases h1 : a.fixed = b.fixed <;> by_cases h2 : a.enc = b.enc <;> simp [h1, h2]

/-- **C89** (a contract the caller passes). It has this id and everything asked for. -/
theorem C89_given_partial (W : SwapWorld) (id : BVal) (amt : CVal) (hash : BVal) (min : LockVal) (sender receiver : Bool) (g c : Contract)
    (hg : GoodCurrency c.amount) (hv : ∀ x, amt = .cur x → GoodCurrency x) (h : W.verify id amt hash min sender receiver (some g) = .ok c) :
    c = g ∧ Identifies id c.id ∧ Passes W c amt hash min sender receiver := by
  obtain ⟨h1, h2⟩ := verify_ok hg hv h
  simp only [SwapWorld.toVerify, bind, Except.bind] at h1
  split at h1
  · cases h1
  · rename_i d hd
    split at h1
    · cases h1
    · rename_i b hb
      cases b with
      | false => simp [throw, throwThe, MonadExceptOf.throw] at h1
      | true =>
        simp [pure, Except.pure] at h1
        subst h1
        obtain ⟨-, -, e⟩ := bin_eq_true.1 hb
        refine ⟨rfl, ?_, h2⟩
        simp only at e
        unfold otherData at hd
        split at hd
        · rw [Identifies, e]; exact (binNew32.1 hd).1; all_goals simp
        · rw [Identifies, e]; exact (binNew32.1 hd).1; all_goals simp
        · cases hd; exact e.symm
        · cases hd

/-- **C89** (completeness). A contract that is reported unspent and has everything asked for is accepted. -/
theorem C89_accepts (W : SwapWorld) (hr : Readable W.toWorld) (id : BVal) (amt : CVal) (hash : BVal) (min : LockVal) (sender receiver : Bool) (c : Contract)
    (now : Int) (hg : GoodCurrency c.amount) (hv : ∀ x, amt = .cur x → GoodCurrency x) (hrep : Reported W id c) (hu : c.unspent = true)
    (hct : W.chainTime = .ok now) (h : Passes W c amt hash min sender receiver) : W.verify id amt hash min sender receiver none = .ok c := by
  obtain ⟨co, h1, h2, h3, h4⟩ := hrep
  have hf : W.toVerify id none = .ok c := by
    simp only [SwapWorld.toVerify, SwapWorld.fetch, h1, bind, Except.bind, hct, Contract.ofOutput, h2, pure, Except.pure]
    obtain ⟨a, b, d, e, f, g, u⟩ := c
    simp only at h3 h4 hu
    simp [h3, h4, hu]
  simp only [SwapWorld.verify, bind, Except.bind, hf, (checkAmount_ok hg hv).2 h.amount, checkSecretHash_ok.2 h.hash, checkRefundTime_ok.2 h.time,
    checkParty_holds hr h.sender, checkParty_holds hr h.receiver, pure, Except.pure]

/-- The demo contract. -/
def swapDeal (unspent : Bool) : Contract :=
  ⟨⟨List.replicate 32 9⟩, addrOf key1, addrOf key2, some (toyHash (List.replicate 32 7)), 1500000000, ⟨some ⟨false, 10, 0⟩⟩, unspent⟩

example : (swapWorld [key2] 1400000000).verify (.bytes (List.replicate 32 9)) (.int 10) (.bytes (toyHash (List.replicate 32 7))) (.int 1450000000) false true none =
    .ok (swapDeal true) := by decide +kernel
example : (swapWorld [key2] 1400000000).verify (.bytes (List.replicate 32 9)) (.int 10) .none .none false true (some (swapDeal true)) = .ok (swapDeal true) := by
  decide +kernel
example : (swapWorld [key2] 1400000000).verify (.bytes (List.replicate 32 9)) (.int 11) .none .none false false none = .error .atomicSwapContractInvalid ∧
    (swapWorld [key2] 1400000000).verify (.bytes (List.replicate 32 9)) .none (.bytes (List.replicate 32 7)) .none false false none = .error .atomicSwapContractInvalid ∧
    (swapWorld [key2] 1400000000).verify (.bytes (List.replicate 32 9)) .none .none (.int 1500000001) false false none = .error .atomicSwapContractInvalid ∧
    (swapWorld [key2] 1400000000).verify (.bytes (List.replicate 32 9)) .none .none .none true false none = .error .atomicSwapContractInvalid ∧
    (swapWorld [key2] 1400000000).verify (.bytes (List.replicate 32 8)) .none .none .none false false (some (swapDeal true)) = .error .atomicSwapContractInvalid := by
  decide +kernel
example : Reported (swapWorld [key2] 1400000000) (.bytes (List.replicate 32 9)) (swapDeal true) ∧ Readable (swapWorld [key2] 1400000000).toWorld := by
  refine ⟨⟨swapCoin, rfl, rfl, rfl, rfl⟩, ?_⟩
  intro addrs ha a hm
  cases ha
  simp only [List.map_cons, List.map_nil, List.mem_singleton] at hm
  subst hm
  exact ⟨addrOf key2, by show UnlockHash.fromJson toyHash _ = _; decide +kernel⟩

/-- **C89 is false** for a contract the caller passes that is known to be spent: that is not looked at. -/
theorem C89_spent_false : ∃ (W : SwapWorld) (id : BVal) (g : Contract), g.unspent = false ∧ W.verify id .none .none .none false false (some g) = .ok g :=
  ⟨swapWorld [key2] 1400000000, .bytes (List.replicate 32 9), swapDeal false, rfl, by decide +kernel⟩

/-- **C89 is false** for a `min_refund_time` given as a number of seconds, as documented: a contract that can already be refunded passes the check that
it cannot be refunded for another hour. -/
theorem C89_time_false : ∃ (W : SwapWorld) (id : BVal) (c : Contract) (now : Int), W.chainTime = .ok now ∧
    W.verify id .none .none (.int 3600) false false none = .ok c ∧ ¬ TimeLeft now c.lockTime 3600 :=
  ⟨swapWorld [key2] 1600000000, .bytes (List.replicate 32 9), swapDeal true, 1600000000, rfl, by decide +kernel, by
    show ¬ (if (3600 : Int) = 0 then _ else _)
    decide⟩

/-- More generally: with a number of seconds below the time of the chain, exactly the contracts that can already be refunded pass. -/
theorem C89_seconds_false (W : SwapWorld) (id : BVal) (c : Contract) (now d : Int) (hct : W.chainTime = .ok now) (h0 : 0 < d) (hd : d ≤ now) (hg : GoodCurrency c.amount)
    (h : W.verify id .none .none (.int d) false false none = .ok c) : ¬ TimeLeft now c.lockTime d := by
  obtain ⟨-, -, hp⟩ := C89_fetched_partial W id _ _ _ _ _ c hg (by simp) h
  obtain ⟨now', T, h1, h2, h3⟩ := hp.time (by simp)
  rw [hct] at h1; cases h1
  have : T = d := by rcases h2 with e | e <;> cases e; rfl
  subst this
  rw [if_neg (by omega)] at h3
  unfold TimeLeft
  rw [if_neg (by omega)]
  omega

end TF.Props
