import Verif.Props.SignForeign
import Verif.Props.Preimage
/-!
# Properties C83–C86: what happens to payments
-/
namespace TF.Props
open TF Spec

/-! ## C83 -/

theorem coinRequests_each {H : Bytes → Bytes} {l : List CoinInput} : ∀ {k : Nat} {rs : List TxRequest}, coinRequests H k l = .ok rs →
    ∀ ci ∈ l, ∃ qs, ci.requests H = .ok qs := by
  induction l with
  | nil => intro k rs _ ci h; simp at h
  | cons c l ih =>
    intro k rs h ci hci
    simp only [coinRequests, bind, Except.bind] at h
    split at h
    · cases h
    · rename_i qs hq
      split at h
      · cases h
      · rename_i rest hrest
        rcases List.mem_cons.1 hci with rfl | hci
        · exact ⟨qs, hq⟩
        · exact ih hrest ci hci

/-- A new transaction that spends outputs of the wallet only is submitted. -/
theorem signSubmit_own {W : World} {w : Wallets} {t0 : Tx} {l : List CoinInput} (hu : Unsigned t0) (hd : DistinctParties W.H t0)
    (hc : t0.coinInputs = some l) (hx : selfSignatures t0 = [] ∧ mintPart t0 = none)
    (hown : ∀ ci ∈ l, ∃ co u, ci.parent = some co ∧ co.condition.unwrap = .unlockHash u ∧ W.keys.get? (u.str W.H) ≠ none ∧ ¬ HasAddress W.H .default (u.str W.H))
    {t : Tx} {b : Bool} (h : (W.signSubmit w t0).result = .ok (t, b)) : b = true := by
  rcases signSubmit_spec _ (rfl : W.signSubmit w t0 = _) with ⟨e, ho⟩ | ⟨t1, hs, hb, ⟨hf, ho⟩ | ⟨hf, ho⟩⟩
  · rw [ho] at h; cases h
  · rw [ho] at h
    simp only [bind, Except.bind] at h
    split at h <;> cases h
    rfl
  · exfalso
    unfold World.signNew at hs
    simp only [bind, Except.bind] at hs
    split at hs
    · cases hs
    · rename_i rs hrs
      split at hs
      · cases hs
      · split at hs
        · cases hs
        · rename_i x hx'
          obtain ⟨t2, n⟩ := x
          simp only [pure, Except.pure, Except.ok.injEq] at hs
          subst hs
          rename' t2 => t1
          obtain ⟨g1, _, _, _, _, g6⟩ := signAll_added hd (fun r hr => ⟨(requests_ok hrs r hr).1, requests_ext hrs r hr⟩) rfl hu.legacy hx'
          have hbi := bare_inputs hb
          rw [hc] at hbi
          cases hc1 : t1.coinInputs with
          | none => rw [hc1] at hbi; cases hbi
          | some l1 =>
            rw [hc1] at hbi
            simp only [Option.map_some, Option.some.injEq] at hbi
            have hreq : ∃ cr, coinRequests W.H 0 l = .ok cr ∧ ∀ r ∈ cr, r ∈ rs := by
              unfold Tx.requests at hrs
              simp only [hc, bind, Except.bind] at hrs
              split at hrs
              · cases hrs
              · rename_i cr hcr
                split at hrs
                · cases hrs
                · split at hrs
                  · cases hrs
                  · cases hrs
                    exact ⟨cr, hcr, fun r hr => List.mem_append_left _ (List.mem_append_left _ hr)⟩
            obtain ⟨cr, hcr, hsub⟩ := hreq
            have hall : ∀ ci ∈ l1, ci.isFulfilled = .ok true := by
              intro ci hci
              obtain ⟨i, hi⟩ := List.mem_iff_getElem?.1 hci
              have hi0 := congrArg (·[i]?) hbi
              simp only [List.getElem?_map, hi, Option.map_some] at hi0
              obtain ⟨c0, hc0, he⟩ := Option.map_eq_some_iff.1 hi0.symm
              obtain ⟨co, u, p1, p2, p3, p4⟩ := hown c0 (List.mem_of_getElem? hc0)
              have hpar : ci.parent = some co := by
                have := congrArg CoinInput.parent he
                simp only [bareInput] at this
                rw [← this]; exact p1
              obtain ⟨qs, hqs⟩ := coinRequests_each hcr c0 (List.mem_of_getElem? hc0)
              have hsingle : c0.fulfillment = .single .default none := by
                rcases hu.coins l hc c0 (List.mem_of_getElem? hc0) with e | e | ⟨sec, e⟩
                · exact e
                · simp [CoinInput.requests, p1, e, Fulfillment.requests, p2] at hqs
                · exfalso
                  simp only [CoinInput.requests, p1, e, Fulfillment.requests] at hqs
                  cases hcc : co.condition <;> simp [hcc] at hqs
                  simp [hcc, Condition.unwrap] at p2
              obtain ⟨r, r1, r2, r3⟩ := coinRequests_has hcr hc0 p1 p2 hsingle p4
              have hne := g6 r (hsub r r1) (by rw [r3]; exact p3)
              rw [r2, Nat.zero_add] at hne
              simp only [carried, hc1, Option.getD_some, hi] at hne
              have hkind : ci.fulfillment.hashExtras .default = [] := by
                have := congrArg (fun l => (l.getD [])[i]?) (g1.coins .default)
                simp only [hc1, hc, Option.map_some, Option.getD_some, List.getElem?_map, hi, hc0, Option.some.injEq, inKey, Prod.mk.injEq] at this
                rw [this.2, hsingle]; rfl
              unfold CoinInput.isFulfilled
              rw [hpar]
              cases hff : ci.fulfillment with
              | single k s =>
                rw [hff] at hne
                cases s with
                | none => simp [sigsIn] at hne
                | some s => simp [Fulfillment.isFulfilled, p2]
              | multi ps => rw [hff] at hkind; simp [Fulfillment.hashExtras] at hkind
              | swap k s sec => rw [hff] at hkind; cases sec <;> simp [Fulfillment.hashExtras] at hkind
            have hxf : t1.extraFulfilled = .ok true := by
              cases t0 <;> cases t1 <;> simp only [bare, reduceCtorEq] at hb <;> first | rfl | (simp [selfSignatures] at hx; done) | (simp [mintPart] at hx; done)
            unfold Tx.isFulfilled at hf
            simp only [hc1, hxf, bind, Except.bind] at hf
            rw [(reduceFulfilled_true l1 true).2 ⟨rfl, hall⟩] at hf
            cases hf

theorem fund_own {W : World} {w : Wallets} {src : Source} {need : Currency} {ins : List CoinInput} {rem : Currency} {suggested : Option Condition}
    (ha : AllOwn W w src) (hf : w.fund W.H need src = .ok (ins, rem, suggested)) :
    ∀ ci ∈ copyInputs ins, ∃ co u, ci.parent = some co ∧ co.condition.unwrap = .unlockHash u ∧ W.keys.get? (u.str W.H) ≠ none ∧ ¬ HasAddress W.H .default (u.str W.H) := by
  intro ci hci
  unfold copyInputs at hci
  obtain ⟨cj, hcj, rfl⟩ := List.mem_map.1 hci
  obtain ⟨co, g1, g2, g3⟩ := C53_eligible W.H w need src ins rem suggested hf cj hcj
  obtain ⟨u, u1, u2, u3⟩ := ha co g1
  exact ⟨co, u, by simp [CoinInput.parentOutput, g3], u1, u2, u3⟩

theorem payment_own {W : World} {w : Wallets} {outs : List CoinOutput} {sum : Currency} {src : Source} {refund : Recipient} {data : DataArg} {t t' : Tx} {b : Bool}
    (ha : AllOwn W w src) (h : W.payment w outs sum src refund data = .ok t) (hr : (W.signSubmit w t).result = .ok (t', b)) : b = true := by
  unfold World.payment at h
  simp only [bind, Except.bind] at h
  split at h
  · cases h
  · split at h
    · cases h
    · rename_i x hx
      obtain ⟨ins, rem, suggested⟩ := x
      simp only at h
      split at h
      · cases h
      · split at h
        · cases h
        · split at h
          · cases h
          · cases h
            refine signSubmit_own (l := copyInputs ins) ⟨by simp [IsLegacy], ?_, by simp [selfSignatures], by simp [mintPart]⟩ (fun m e => by cases e) rfl ⟨rfl, rfl⟩ (fund_own ha hx) hr
            intro l hl
            cases hl
            exact fund_fresh hx

theorem fundExtra_own {W : World} {w : Wallets} {extra : Currency} {src : Source} {refund : Recipient} {x : List CoinInput × Option CoinOutput × Currency}
    (ha : AllOwn W w src) (h : W.fundExtra w extra src refund = .ok x) :
    ∀ ci ∈ x.1, ∃ co u, ci.parent = some co ∧ co.condition.unwrap = .unlockHash u ∧ W.keys.get? (u.str W.H) ≠ none ∧ ¬ HasAddress W.H .default (u.str W.H) := by
  unfold World.fundExtra at h
  simp only [bind, Except.bind] at h
  split at h
  · cases h
  · split at h
    · cases h
    · rename_i x hx
      obtain ⟨ins', rem, suggested⟩ := x
      simp only at h
      split at h
      · cases h
      · split at h
        · split at h
          · cases h
          · cases h; exact fund_own ha hx
        · cases h; exact fund_own ha hx

theorem erc20_own {W : World} {w : Wallets} {addr : BVal} {amt : CVal} {src : Source} {refund : Recipient} {t : Tx} {b : Bool} (hw : W.balance = .ok w)
    (ha : AllOwn W w src) (h : (W.erc20Send addr amt src refund).result = .ok (t, b)) : b = true := by
  unfold World.erc20Send at h
  rw [hw] at h
  simp only [Outcome.ofRes] at h
  cases ht : W.erc20Payment w addr amt src refund with
  | error e => rw [ht] at h; cases h
  | ok t0 =>
    rw [ht] at h
    simp only at h
    unfold World.erc20Payment at ht
    simp only [bind, Except.bind] at ht
    split at ht
    · cases ht
    · split at ht
      · cases ht
      · split at ht
        · cases ht
        · rename_i x hx
          cases ht
          refine signSubmit_own (l := x.1) ⟨by simp [IsLegacy], ?_, by simp [selfSignatures], by simp [mintPart]⟩ (fun m e => by cases e) rfl ⟨rfl, rfl⟩ (fundExtra_own ha hx) h
          intro l hl
          cases hl
          exact fundExtra_fresh hx

/-- **C83** (`coins_send`, to any recipient). If all that may be spent belongs to personal addresses of the wallet, `coins_send` never returns
without having submitted the transaction. -/
theorem C83_coins_send (W : World) (w : Wallets) (r : Recipient) (amt : CVal) (src : Source) (refund : Recipient) (lock : LockVal) (data : DataArg)
    (t : Tx) (b : Bool) (hw : W.balance = .ok w) (ha : AllOwn W w src) (h : (W.coinsSend r amt src refund lock data).result = .ok (t, b)) :
    b = true ∧ ∃ t', (W.coinsSend r amt src refund lock data).posted = [t'] := by
  have hb : b = true := by
    unfold World.coinsSend at h
    split at h
    · split at h
      · exact erc20_own hw ha h
      · cases h
    · rw [hw] at h
      simp only [Outcome.ofRes] at h
      cases ht : W.coinPayment w r amt src refund lock data with
      | error e => rw [ht] at h; cases h
      | ok t0 =>
        rw [ht] at h
        unfold World.coinPayment at ht
        simp only [bind, Except.bind] at ht
        split at ht
        · cases ht
        · split at ht
          · cases ht
          · exact payment_own ha ht h
  subst hb
  obtain ⟨t', h1, _⟩ := (C57_coins_send W r amt src refund lock data).yes t h
  exact ⟨rfl, t', h1⟩

/-- **C83** (the transaction builder). -/
theorem C83_builder_send (W : World) (w : Wallets) (b : Builder) (src : Source) (refund : Recipient) (data : DataArg) (t : Tx) (ok : Bool)
    (hw : W.balance = .ok w) (ha : AllOwn W w src) (h : (W.builderSend b src refund data).2.result = .ok (t, ok)) :
    ok = true ∧ ∃ t', (W.builderSend b src refund data).2.posted = [t'] := by
  have hb : ok = true := by
    unfold World.builderSend at h
    simp only at h
    split at h
    · cases h
    · rw [hw] at h
      simp only [Outcome.ofRes] at h
      split at h
      · rename_i t0 ht
        unfold World.builderTx at ht
        simp only [bind, Except.bind] at ht
        split at ht
        · cases ht
        · exact payment_own ha ht h
      · cases h
  subst hb
  obtain ⟨t', h1, _⟩ := (C57_builder_send W b src refund data).yes t h
  exact ⟨rfl, t', h1⟩

theorem demo_allOwn : AllOwn demoWorld (walletsRun toyHash [.chain 1000 1000, .report coinB true false, .report coinA true false, .report coinC false false,
    .report coinM true false]) .none := by
  intro co hco
  have hk : demoWorld.keys.get? ((addrOf key1).str demoWorld.H) ≠ none := by decide +kernel
  have hd : ¬ HasAddress demoWorld.H .default ((addrOf key1).str demoWorld.H) := by
    rintro ⟨u, h1, h2⟩
    have : (PublicKey.default.unlockhash toyHash).map (·.str toyHash) ≠ .ok ((addrOf key1).str toyHash) := by decide +kernel
    apply this
    show (PublicKey.default.unlockhash demoWorld.H).map _ = _
    rw [h1]; exact congrArg Except.ok h2
  cases hco with
  | personal u offered address asked =>
    rw [show spendable _ = [coinB, coinA, coinC] by decide +kernel] at offered
    simp only [List.mem_cons, List.not_mem_nil, or_false] at offered
    rcases offered with rfl | rfl | rfl <;> exact ⟨addrOf key1, by decide +kernel, hk, hd⟩
  | multi name m u wallet offered names given asked => exact absurd rfl given
example : shown (demoWorld.coinsSend (.uh (addrOf key2)) (.int 8) .none .none .none .none) =
    ([[(8000000000, .unlockHash (addrOf key2)), (3900000000, .unlockHash (addrOf key1))]],
      some ([(8000000000, .unlockHash (addrOf key2)), (3900000000, .unlockHash (addrOf key1))], true)) := by decide +kernel

/-! ## C86 -/

theorem setIdAt_val (l : List CoinOutput) (i : Nat) (id : Hash) : (setIdAt l i id).map CoinOutput.val = l.map CoinOutput.val ∧
    ∀ H : Bytes → Bytes, (setIdAt l i id).map (fun co => legacyOutput H co.value.toVal co.condition) = l.map fun co => legacyOutput H co.value.toVal co.condition := by
  have h := setIdAt_bare l i id
  have g : ∀ {β : Type} (f : CoinOutput → β), (∀ co, f (bareOutput co) = f co) → (setIdAt l i id).map f = l.map f := by
    intro β f hf
    have := congrArg (List.map f) h
    simpa only [List.map_map, show f ∘ bareOutput = f from funext hf] using this
  exact ⟨g _ fun _ => rfl, fun H => g _ fun _ => rfl⟩

theorem setIdAt_length (l : List CoinOutput) (i : Nat) (id : Hash) : (setIdAt l i id).length = l.length := by
  unfold setIdAt; split <;> simp

/-- The ids of its own outputs are not part of what the id of a transaction is made of. -/
theorem setOutputId_idInput (H : Bytes → Bytes) (t : Tx) (i : Nat) (id : Hash) : (t.setOutputId i id).idInput H = t.idInput H := by
  have hr : ∀ (r : Option CoinOutput), refundOnly (if i = 0 then r.map fun co => { co with id := id } else r) = refundOnly r ∧
      refundRiv (if i = 0 then r.map fun co => { co with id := id } else r) = refundRiv r ∧
      (if i = 0 then r.map fun co => { co with id := id } else r).isSome = r.isSome := by
    intro r; split <;> cases r <;> exact ⟨rfl, rfl, rfl⟩
  cases t <;> simp only [Tx.setOutputId, Tx.idInput, Tx.binaryEncode, TxV1.binaryData, TxV129.binaryData, TxV144.binaryData, TxV145.binaryData,
    TxV146.binaryData, TxV208.binaryData, TxV210.binaryData, (setIdAt_val _ i id).1, (setIdAt_val _ i id).2, setIdAt_length, hr]

theorem setOutputId_outputs (t : Tx) (hv : ∀ v, t ≠ .v209 v) (i : Nat) (id : Hash) : (t.setOutputId i id).coinOutputs = setIdAt t.coinOutputs i id := by
  have hr : ∀ (r : Option CoinOutput), (if i = 0 then r.map fun co => { co with id := id } else r).toList = setIdAt r.toList i id := by
    intro r
    cases r with
    | none => simp [setIdAt]
    | some co => cases i <;> simp [setIdAt]
  cases t <;> simp only [Tx.setOutputId, Tx.coinOutputs, hr]
  all_goals first | rfl | (rename TxV209 => v; exact absurd rfl (hv v))

theorem setOutputId_kind (t : Tx) (i : Nat) (id : Hash) : (∀ v, t ≠ .v209 v) → ∀ v, t.setOutputId i id ≠ .v209 v := by
  intro h v e
  cases t <;> simp only [Tx.setOutputId, reduceCtorEq] at e
  exact h _ rfl

theorem setOutputId_spec (t : Tx) (i : Nat) (id : Hash) : (t.setOutputId i id).coinSpec = t.coinSpec := by cases t <;> rfl

theorem specifierFill_set (t : Tx) (i : Nat) (id : Hash) : specifierFill (t.setOutputId i id) = specifierFill t := by cases t <;> rfl

theorem coinOutputId_network {H : Bytes → Bytes} {t : Tx} {i : Nat} {id : Hash} (h : t.coinOutputId H i = .ok id) :
    NetworkOutputId H t i id := by
  unfold Tx.coinOutputId at h
  simp only [bind, Except.bind] at h
  split at h
  · cases h
  · rename_i x hx
    unfold Tx.coinOutputIdInput at hx
    split at hx
    · cases hx
    · obtain ⟨d, hd, h0, h1, rfl⟩ := outputId_split H t _ i x hx
      refine ⟨d, hd, ?_⟩
      have hs : t.coinSpec = utf8 "coin output".toList ++ List.replicate (specifierFill t) 0 := by
        cases t with
        | v1 v =>
          cases hv : v.legacy <;> simp only [Tx.coinSpec, specifierFill, hv] <;> decide +kernel
        | _ => simp only [Tx.coinSpec, specifierFill]; decide +kernel
      rw [hs] at h
      simp only [Int.toNat_natCast] at h
      exact hashNew_bytes h

theorem getElem?_setIdAt {l : List CoinOutput} {k : Nat} {id : Hash} {i : Nat} : (setIdAt l k id)[i]? = if i = k then l[i]?.map (fun co => { co with id := id }) else l[i]? := by
  unfold setIdAt
  split
  · rename_i h
    split
    · rename_i e; subst e; rw [h]; rfl
    · rfl
  · rename_i co h
    rw [List.getElem?_set]
    split
    · rename_i e; subst e
      rw [if_pos rfl, h, if_pos (List.getElem?_eq_some_iff.1 h).1]; rfl
    · rename_i e; rw [if_neg (fun x => e x.symm)]

theorem claimOutputs_ids {H : Bytes → Bytes} {addrs : List Str} {l : List CoinOutput} : ∀ {k : Nat} {t t' : Tx} {w w' : Wallets},
    claimOutputs H addrs k l t w = .ok (t', w') → (∀ v, t ≠ .v209 v) → t.coinOutputs.drop k = l →
      t'.idInput H = t.idInput H ∧ t'.coinOutputs.take k = t.coinOutputs.take k ∧
      ∀ i co u, k ≤ i → t'.coinOutputs[i]? = some co → co.condition.unlockhash H = .ok u → u.str H ∈ addrs → NetworkOutputId H t i co.id := by
  induction l with
  | nil =>
    intro k t t' w w' h hv hd
    cases h
    refine ⟨rfl, rfl, ?_⟩
    intro i co u hk hi
    have := List.drop_eq_nil_iff.1 hd
    rw [List.getElem?_eq_none (by omega)] at hi
    cases hi
  | cons co l ih =>
    intro k t t' w w' h hv hd
    have hk : t.coinOutputs[k]? = some co := by
      have := congrArg (fun l => l[0]?) hd
      simpa [List.getElem?_drop] using this
    have hd1 : t.coinOutputs.drop (k + 1) = l := by
      rw [← List.tail_drop, hd]; rfl
    simp only [claimOutputs, bind, Except.bind] at h
    split at h
    · cases h
    · rename_i u hu
      split at h
      · split at h
        · cases h
        · rename_i id hid
          split at h
          · cases h
          · have ho := setOutputId_outputs t hv k id
            obtain ⟨g1, g2, g3⟩ := ih h (setOutputId_kind t k id hv) (by
              rw [ho]
              apply List.ext_getElem?
              intro j
              rw [← hd1, List.getElem?_drop, List.getElem?_drop, getElem?_setIdAt, if_neg (by omega)])
            refine ⟨g1.trans (setOutputId_idInput H t k id), ?_, ?_⟩
            · have := congrArg (List.take k) g2
              rw [List.take_take, List.take_take, Nat.min_eq_left (by omega), ho] at this
              rw [this]
              apply List.ext_getElem?
              intro j
              rw [List.getElem?_take, List.getElem?_take]
              split
              · rw [getElem?_setIdAt, if_neg (by omega)]
              · rfl
            · intro i c u' hki hi hu' hin
              by_cases e : i = k
              · subst e
                have hi2 := congrArg (·[i]?) g2
                simp only [List.getElem?_take, if_pos (Nat.lt_succ_self i)] at hi2
                rw [hi, ho, getElem?_setIdAt, if_pos rfl, hk] at hi2
                simp only [Option.map_some, Option.some.injEq] at hi2
                subst hi2
                exact coinOutputId_network hid
              · obtain ⟨b, b1, b2⟩ := g3 i c u' (by omega) hi hu' hin
                rw [setOutputId_idInput] at b1
                rw [specifierFill_set] at b2
                exact ⟨b, b1, b2⟩
      · rename_i hno
        obtain ⟨g1, g2, g3⟩ := ih h hv hd1
        refine ⟨g1, ?_, ?_⟩
        · have := congrArg (List.take k) g2
          rwa [List.take_take, List.take_take, Nat.min_eq_left (by omega)] at this
        · intro i c u' hki hi hu' hin
          by_cases e : i = k
          · subst e
            have hi2 := congrArg (·[i]?) g2
            simp only [List.getElem?_take, if_pos (Nat.lt_succ_self i)] at hi2
            rw [hi, hk] at hi2
            cases hi2
            rw [hu] at hu'; cases hu'
            exact absurd (by simpa using hin) hno
          · exact g3 i c u' (by omega) hi hu' hin

theorem multiMap_put_names (m : MultiMap) (a : Str) (v : MultiBalance) : ∀ b ∈ m.map (·.1), b ∈ (m.put a v).map (·.1) := by
  intro b hb
  obtain ⟨p, hp, rfl⟩ := List.mem_map.1 hb
  unfold MultiMap.put
  split
  · refine List.mem_map.2 ⟨if p.1 = a then (p.1, v) else p, List.mem_map.2 ⟨p, hp, rfl⟩, ?_⟩
    split <;> rfl
  · exact List.mem_map.2 ⟨p, List.mem_append_left _ hp, rfl⟩

theorem addOrRaise_names {H : Bytes → Bytes} {w w' : Wallets} {o : CoinOutput} {c s : Bool} (h : w.addOrRaise H o c s = .ok w') :
    ∀ b ∈ w.wallets.map (·.1), b ∈ w'.wallets.map (·.1) := by
  unfold Wallets.addOrRaise at h
  cases hr : w.outputAdd H o c s with
  | mk w1 e =>
    rw [hr] at h
    cases e with
    | some e => cases h
    | none =>
      cases h
      unfold Wallets.outputAdd at hr
      split at hr
      · cases hr
      · split at hr
        · unfold Wallets.multiOutputAdd at hr
          split at hr
          · split at hr
            · cases hr
            · simp only [Prod.mk.injEq] at hr
              rw [← hr.1]
              exact multiMap_put_names _ _ _
          · cases hr
        · simp only [Prod.mk.injEq] at hr
          rw [← hr.1]
          exact fun b hb => hb

theorem spendInputs_names {H : Bytes → Bytes} {l : List CoinInput} : ∀ {w w' : Wallets}, spendInputs H l w = .ok w' →
    ∀ b ∈ w.wallets.map (·.1), b ∈ w'.wallets.map (·.1) := by
  induction l with
  | nil => intro w w' h; cases h; exact fun b hb => hb
  | cons ci l ih =>
    intro w w' h b hb
    simp only [spendInputs, bind, Except.bind] at h
    split at h
    · cases h
    · rename_i w1 h1
      exact ih h b (addOrRaise_names h1 b hb)

theorem signSubmit_ids {W : World} {w : Wallets} {t0 : Tx} (hw : W.balance = .ok w) (hv : ∀ v, t0 ≠ .v209 v) :
    IdsFilled W (W.signSubmit w t0) := by
  intro t ht
  rcases signSubmit_spec _ (rfl : W.signSubmit w t0 = _) with ⟨e, ho⟩ | ⟨t1, _, hb, ⟨_, ho⟩ | ⟨_, ho⟩⟩
  · rw [ho] at ht; cases ht
  · rw [ho] at ht ⊢
    refine ⟨t1, rfl, ?_⟩
    simp only [bind, Except.bind] at ht
    split at ht
    · cases ht
    · rename_i t2 h2
      cases ht
      intro i co u hi hu hin
      unfold World.afterPost at h2
      simp only [bind, Except.bind] at h2
      split at h2
      · cases h2
      · split at h2
        · cases h2
        · rename_i w2 hw2
          split at h2
          · cases h2
          · rename_i addrs ha
            split at h2
            · cases h2
            · rename_i x hx
              obtain ⟨t3, w3⟩ := x
              cases h2
              have hv1 : ∀ v, t1 ≠ .v209 v := by
                intro v e; subst e
                cases t0 <;> simp only [bare, reduceCtorEq] at hb
                exact hv _ rfl
              refine (claimOutputs_ids hx hv1 rfl).2.2 i co u (Nat.zero_le _) hi hu (List.mem_append.2 ?_)
              rcases hin with ⟨addrs', ha', hin⟩ | ⟨w', m, hw', hin⟩
              · rw [ha] at ha'; cases ha'; exact .inl hin
              · rw [hw] at hw'; cases hw'
                exact .inr (spendInputs_names hw2 _ (List.mem_map.2 ⟨_, hin, rfl⟩))
  · rw [ho] at ht; cases ht

theorem ofRes_ids {α : Type} {W : World} {r : Res α} {f : α → Outcome (Tx × Bool)} (h : ∀ a, r = .ok a → IdsFilled W (f a)) : IdsFilled W (Outcome.ofRes r f) := by
  cases r with
  | error e => intro t ht; cases ht
  | ok a => exact h a rfl

theorem error_ids {W : World} {e : Err} {l : List Tx} : IdsFilled W ⟨l, .error e⟩ := by intro t ht; cases ht

theorem erc20_ids (W : World) (addr : BVal) (amt : CVal) (src : Source) (refund : Recipient) : IdsFilled W (W.erc20Send addr amt src refund) := by
  refine ofRes_ids fun w hw => ofRes_ids fun t ht => ?_
  have : ∃ v, t = .v208 v := by
    unfold World.erc20Payment at ht
    simp only [bind, Except.bind] at ht
    repeat' split at ht
    all_goals first
      | (cases ht; done)
      | (cases ht; exact ⟨_, rfl⟩)
  obtain ⟨v, rfl⟩ := this
  exact signSubmit_ids hw (by simp)

theorem payment_kind {W : World} {w : Wallets} {outs : List CoinOutput} {sum : Currency} {src : Source} {refund : Recipient} {data : DataArg} {t : Tx}
    (h : W.payment w outs sum src refund data = .ok t) : ∃ v : TxV1, t = .v1 v ∧ v.legacy = false := by
  unfold World.payment at h
  simp only [bind, Except.bind] at h
  repeat' split at h
  all_goals first
    | (cases h; done)
    | (cases h; exact ⟨_, rfl, rfl⟩)

/-- **C86** (`coins_send`, to any recipient). -/
theorem C86_coins_send (W : World) (r : Recipient) (amt : CVal) (src : Source) (refund : Recipient) (lock : LockVal) (data : DataArg) :
    IdsFilled W (W.coinsSend r amt src refund lock data) := by
  unfold World.coinsSend
  split
  · split
    · exact erc20_ids W _ amt src refund
    · exact error_ids
  · refine ofRes_ids fun w hw => ofRes_ids fun t ht => ?_
    unfold World.coinPayment at ht
    simp only [bind, Except.bind] at ht
    split at ht
    · cases ht
    · split at ht
      · cases ht
      · obtain ⟨v, rfl, hl⟩ := payment_kind ht
        exact signSubmit_ids hw (by simp)

/-- **C86** (the transaction builder). -/
theorem C86_builder_send (W : World) (b : Builder) (src : Source) (refund : Recipient) (data : DataArg) : IdsFilled W (W.builderSend b src refund data).2 := by
  unfold World.builderSend
  simp only
  split
  · exact error_ids
  · refine ofRes_ids fun w hw => ofRes_ids fun t ht => ?_
    unfold World.builderTx at ht
    simp only [bind, Except.bind] at ht
    split at ht
    · cases ht
    · obtain ⟨v, rfl, hl⟩ := payment_kind ht
      exact signSubmit_ids hw (by simp)

/-- **C86** (`minter.coins_new`). -/
theorem C86_coins_new (W : World) (nonce : Bytes) (r : Recipient) (amt : CVal) (lock : LockVal) (data : DataArg) : IdsFilled W (W.coinsNew nonce r amt lock data) := by
  refine ofRes_ids fun w hw => ofRes_ids fun t ht => ?_
  have : ∃ v, t = .v129 v := by
    unfold World.coinCreation at ht
    simp only [bind, Except.bind] at ht
    repeat' split at ht
    all_goals first
      | (cases ht; done)
      | (cases ht; exact ⟨_, rfl⟩)
  obtain ⟨v, rfl⟩ := this
  exact signSubmit_ids hw (by simp)

theorem ids_keys {W : World} {k : Keys} {o : Outcome (Tx × Bool)} (h : IdsFilled { W with keys := k } o) : IdsFilled W o := h

/-- **C86** (`threebot.record_new`). -/
theorem C86_record_new (W : World) (L : IpLib) (months : Int) (names : Option (List NameArg)) (addresses : Option (List NetArg)) (keyIndex : Option Int)
    (src : Source) (refund : Recipient) : IdsFilled W (W.recordNew L months names addresses keyIndex src refund) := by
  refine ofRes_ids fun t _ => ofRes_ids fun fees _ => ofRes_ids fun w hw => ofRes_ids fun x hx => ofRes_ids fun k _ => ?_
  exact ids_keys (k := k.1) (signSubmit_ids (W := { W with keys := k.1 }) hw (by simp))

/-- **C86** (`threebot.record_update`). -/
theorem C86_record_update (W : World) (L : IpLib) (id months : Int) (namesAdd namesRemove : Option (List NameArg))
    (addrsAdd addrsRemove : Option (List NetArg)) (src : Source) (refund : Recipient) :
    IdsFilled W (W.recordUpdate L id months namesAdd namesRemove addrsAdd addrsRemove src refund) := by
  refine ofRes_ids fun t _ => ofRes_ids fun k _ => ofRes_ids fun fees _ => ofRes_ids fun w hw => ofRes_ids fun x hx => ?_
  exact signSubmit_ids hw (by simp)

/-- **C86** (`threebot.name_transfer`). -/
theorem C86_name_transfer (W : World) (sender receiver : Int) (names : Option (List NameArg)) (src : Source) (refund : Recipient) :
    IdsFilled W (W.nameTransfer sender receiver names src refund) := by
  refine ofRes_ids fun t _ => ofRes_ids fun fees _ => ofRes_ids fun w hw => ofRes_ids fun x hx => ?_
  exact signSubmit_ids hw (by simp)

/-- **C86** (`erc20.address_register`). -/
theorem C86_address_register (W : World) (which : WhichKey) (src : Source) (refund : Recipient) : IdsFilled W (W.addressRegister which src refund) := by
  refine ofRes_ids fun k _ => ofRes_ids fun w hw => ofRes_ids fun x hx => ?_
  exact ids_keys (k := k.1) (signSubmit_ids (W := { W with keys := k.1 }) hw (by simp))

/-- **C86** (`transaction_sign`). -/
theorem C86_transaction_sign (W : World) (t t2 : Tx) (submit a : Bool)
    (h : (W.transactionSign t submit).result = .ok (t2, a, true)) :
    ∃ t', (W.transactionSign t submit).posted = [t'] ∧ ∀ i co u, t2.coinOutputs[i]? = some co → co.condition.unlockhash W.H = .ok u →
      OwnAddress W (u.str W.H) → NetworkOutputId W.H t' i co.id := by
  rcases transactionSign_spec _ (rfl : W.transactionSign t submit = _) with ⟨e, ho⟩ | ⟨w, t1, rs, hw, hc, hrs, ⟨_, ho⟩ | ⟨hne, t3, n, ok, hs, hf, ⟨_, ho⟩ | ⟨_, ho⟩⟩⟩
  · rw [ho] at h; cases h
  · rw [ho] at h; cases h
  · rw [ho] at h ⊢
    refine ⟨t3, rfl, ?_⟩
    have hb := signAll_bare hs
    have hv3 : ∀ v, t3 ≠ .v209 v := by
      intro v e; subst e
      cases t1 <;> simp only [bare, reduceCtorEq] at hb
      apply hne
      simpa [Tx.requests, Tx.coinInputs, coinRequests, Tx.stakeInputs, stakeRequests, Tx.extraRequests, bind, Except.bind, pure, Except.pure] using hrs.symm
    simp only [bind, Except.bind] at h
    split at h
    · cases h
    · rename_i t4 h4
      cases h
      intro i co u hi hu hin
      unfold World.afterSign at h4
      simp only [bind, Except.bind] at h4
      split at h4
      · cases h4
      · split at h4
        · cases h4
        · rename_i addrs ha
          split at h4
          · cases h4
          · split at h4
            · cases h4
            · rename_i x hx
              obtain ⟨t5, w5⟩ := x
              cases h4
              refine (claimOutputs_ids hx hv3 rfl).2.2 i co u (Nat.zero_le _) hi hu (List.mem_append.2 ?_)
              rcases hin with ⟨addrs', ha', hin⟩ | ⟨w', m, hw', hin⟩
              · rw [ha] at ha'; cases ha'; exact .inl hin
              · rw [hw] at hw'; cases hw'
                exact .inr (List.mem_map.2 ⟨_, hin, rfl⟩)
  · rw [ho] at h; cases h

example : (demoWorld.coinsSend (.uh (addrOf key2)) (.int 8) .none .none .none .none).result.map (fun x => x.1.coinOutputs.map fun co => co.id.value.length) =
    .ok [0, 32] := by decide +kernel

/-! ## C85 -/

theorem addOrRaise_ok {H : Bytes → Bytes} {w : Wallets} {o : CoinOutput} {c s : Bool} {u : UnlockHash} (hu : o.condition.unlockhash H = .ok u)
    (h3 : u.type = 3 → (∃ os n, o.condition.unwrap = .multiSig os n) ∧ u.str H ∈ w.wallets.map (·.1)) : ∃ w', w.addOrRaise H o c s = .ok w' := by
  unfold Wallets.addOrRaise Wallets.outputAdd
  rw [hu]
  simp only
  by_cases ht : u.type = 3
  · rw [if_pos ht]
    obtain ⟨⟨os, n, hm⟩, hn⟩ := h3 ht
    unfold Wallets.multiOutputAdd
    rw [hm]
    simp only
    have : ∃ m, w.multiFor (u.str H) o = .ok m := by
      unfold Wallets.multiFor
      cases hg : w.wallets.get? (u.str H) with
      | some m => exact ⟨m, rfl⟩
      | none =>
        exfalso
        unfold MultiMap.get? at hg
        simp only [Option.map_eq_none_iff, List.find?_eq_none, decide_eq_true_eq] at hg
        obtain ⟨p, hp, he⟩ := List.mem_map.1 hn
        exact hg p hp he
    obtain ⟨m, hm⟩ := this
    rw [hm]
    simp only [Balance.outputAdd, hu]
    exact ⟨_, rfl⟩
  · rw [if_neg ht]
    simp only [Balance.outputAdd, hu]
    exact ⟨_, rfl⟩

theorem trouble_or_adds {W : World} {w : Wallets} {t : Tx} (hn : ¬ Trouble W w t) {co : CoinOutput} (hc : Concerns t co) :
    ∃ u, co.condition.unlockhash W.H = .ok u ∧ (u.type = 3 → (∃ os n, co.condition.unwrap = .multiSig os n) ∧ u.str W.H ∈ w.wallets.map (·.1)) := by
  cases hu : co.condition.unlockhash W.H with
  | error e => exact absurd (.noAddress co e hc hu) hn
  | ok u =>
    refine ⟨u, rfl, fun h3 => ⟨?_, ?_⟩⟩
    · apply Classical.byContradiction
      intro h
      exact hn (.notMulti co u hc hu h3 fun os n e => h ⟨os, n, e⟩)
    · apply Classical.byContradiction
      intro h
      exact hn (.unknownMulti co u hc hu h3 fun m hm => h (List.mem_map.2 ⟨_, hm, rfl⟩))

theorem spendInputs_ok {W : World} {w0 : Wallets} {t : Tx} (hn : ¬ Trouble W w0 t) {l : List CoinInput} : ∀ {w : Wallets},
    (∀ ci ∈ l, Concerns t ci.parentOutput) → (∀ b ∈ w0.wallets.map (·.1), b ∈ w.wallets.map (·.1)) → ∃ w', spendInputs W.H l w = .ok w' := by
  induction l with
  | nil => intro w _ _; exact ⟨w, rfl⟩
  | cons ci l ih =>
    intro w hc hs
    obtain ⟨u, hu, h3⟩ := trouble_or_adds hn (hc ci (by simp))
    obtain ⟨w1, h1⟩ := addOrRaise_ok (w := w) (c := false) (s := true) hu fun h => ⟨(h3 h).1, hs _ (h3 h).2⟩
    obtain ⟨w2, h2⟩ := ih (w := w1) (fun c h => hc c (by simp [h])) fun b hb => addOrRaise_names h1 b (hs b hb)
    exact ⟨w2, by simp only [spendInputs, h1, bind, Except.bind, h2]⟩

theorem coinOutputId_ok {H : Bytes → Bytes} (hH : Digest32 H) {t : Tx} {b : Bytes} (hb : t.idInput H = .ok b) (hm : t.coinOutputs.length < 2^64) {i : Nat}
    (hi : i < t.coinOutputs.length) : ∃ id, t.coinOutputId H i = .ok id := by
  obtain ⟨x, hx⟩ := (C41_coin_index_partial H t b hb hm i).1 (by omega)
  unfold Tx.coinOutputId
  rw [hx]
  simp only [bind, Except.bind]
  unfold Hash.new BinData.new
  have := hH x
  simp [bind, Except.bind, this, pure, Except.pure, BinData.set, BVal.norm]

theorem claimOutputs_ok {W : World} (hH : Digest32 W.H) {w0 : Wallets} {t0 : Tx} (hn : ¬ Trouble W w0 t0) {addrs : List Str} {l : List CoinOutput} :
    ∀ {k : Nat} {t : Tx} {w : Wallets}, (∀ co ∈ l, co ∈ t0.coinOutputs) → (∀ b ∈ w0.wallets.map (·.1), b ∈ w.wallets.map (·.1)) →
      t.idInput W.H = t0.idInput W.H → t.coinOutputs.length = t0.coinOutputs.length → k + l.length = t.coinOutputs.length →
      ∃ x, claimOutputs W.H addrs k l t w = .ok x := by
  have hid : ∃ b, t0.idInput W.H = .ok b := by
    cases h : t0.idInput W.H with
    | error e => exact absurd (.noId e h) hn
    | ok b => exact ⟨b, rfl⟩
  obtain ⟨b, hb⟩ := hid
  have hm : t0.coinOutputs.length < 2^64 := by
    apply Classical.byContradiction
    intro h
    exact hn (.tooMany (by omega))
  induction l with
  | nil => intro k t w _ _ _ _ _; exact ⟨_, rfl⟩
  | cons co l ih =>
    intro k t w hc hs he hlen hk
    obtain ⟨u, hu, h3⟩ := trouble_or_adds hn (.creates (hc co (by simp)))
    simp only [claimOutputs, bind, Except.bind, hu]
    simp only [List.length_cons] at hk
    split
    · obtain ⟨id, hid⟩ := coinOutputId_ok hH (he.trans hb) (by rw [hlen]; exact hm) (i := k) (by omega)
      obtain ⟨w1, h1⟩ := addOrRaise_ok (w := w) (o := { co with id := id }) (c := false) (s := false) hu fun h => ⟨(h3 h).1, hs _ (h3 h).2⟩
      rw [hid]
      simp only [h1]
      have hl : (t.setOutputId k id).coinOutputs.length = t.coinOutputs.length := by
        cases t <;> simp only [Tx.setOutputId, Tx.coinOutputs, setIdAt_length]
        all_goals (rename_i v; cases v.refund <;> split <;> rfl)
      exact ih (fun c h => hc c (by simp [h])) (fun b hb => addOrRaise_names h1 b (hs b hb)) (by rw [setOutputId_idInput, he]) (by omega) (by omega)
    · exact ih (fun c h => hc c (by simp [h])) hs he hlen (by omega)

theorem signSubmit_raises {W : World} (hH : Digest32 W.H) {w : Wallets} {t0 : Tx} (hw : W.balance = .ok w) : RaisesBefore W (W.signSubmit w t0) := by
  intro e he
  rcases signSubmit_spec _ (rfl : W.signSubmit w t0 = _) with ⟨e', ho⟩ | ⟨t1, _, hb, ⟨_, ho⟩ | ⟨_, ho⟩⟩
  · rw [ho]; exact .inl rfl
  · rw [ho] at he ⊢
    refine .inr ⟨t1, w, rfl, hw, Classical.byContradiction fun hn => ?_⟩
    have : ∃ t2, W.afterPost w t1 = .ok t2 := by
      unfold World.afterPost
      cases hp : W.put t1 with
      | error e => exact absurd (.put e hp) hn
      | ok h =>
        cases ha : W.addresses with
        | error e => exact absurd (.addresses e ha) hn
        | ok addrs =>
          obtain ⟨w1, h1⟩ := spendInputs_ok hn (l := t1.coinInputs.getD []) (w := w) (by
            intro ci hci
            cases hl : t1.coinInputs with
            | none => rw [hl] at hci; simp at hci
            | some l => rw [hl] at hci; exact .spends l ci hl hci rfl) fun b hb => hb
          obtain ⟨x, h2⟩ := claimOutputs_ok hH hn (addrs := addrs ++ w1.wallets.map (·.1)) (l := t1.coinOutputs) (k := 0) (t := t1) (w := w1) (fun co h => h)
            (spendInputs_names h1) rfl rfl (by simp)
          simp only [bind, Except.bind, h1, h2]
          exact ⟨_, rfl⟩
    obtain ⟨t2, h2⟩ := this
    simp only [h2, bind, Except.bind, pure, Except.pure] at he
    cases he
  · rw [ho]; exact .inl rfl

theorem ofRes_raises {α β : Type} {W : World} {r : Res α} {f : α → Outcome β} (h : ∀ a, r = .ok a → RaisesBefore W (f a)) :
    RaisesBefore W (Outcome.ofRes r f) := by
  cases r with
  | error e => intro t ht; exact .inl rfl
  | ok a => exact h a rfl

/-- **C85** (`coins_send`, what holds). An exception means that nothing was submitted, unless one of the named troubles came up after the submission. -/
theorem C85_coins_send_partial (W : World) (hH : Digest32 W.H) (r : Recipient) (amt : CVal) (src : Source) (refund : Recipient) (lock : LockVal) (data : DataArg) :
    RaisesBefore W (W.coinsSend r amt src refund lock data) := by
  unfold World.coinsSend
  split
  · split
    · exact ofRes_raises fun w hw => ofRes_raises fun t _ => signSubmit_raises hH hw
    · intro e _; exact .inl rfl
  · exact ofRes_raises fun w hw => ofRes_raises fun t _ => signSubmit_raises hH hw

/-- **C85** (the transaction builder, what holds). -/
theorem C85_builder_send_partial (W : World) (hH : Digest32 W.H) (b : Builder) (src : Source) (refund : Recipient) (data : DataArg) :
    RaisesBefore W (W.builderSend b src refund data).2 := by
  unfold World.builderSend
  simp only
  split
  · intro e _; exact .inl rfl
  · exact ofRes_raises fun w hw => ofRes_raises fun t _ => signSubmit_raises hH hw

/-- **C85** (`minter.coins_new`, what holds). -/
theorem C85_coins_new_partial (W : World) (hH : Digest32 W.H) (nonce : Bytes) (r : Recipient) (amt : CVal) (lock : LockVal) (data : DataArg) :
    RaisesBefore W (W.coinsNew nonce r amt lock data) := ofRes_raises fun _ hw => ofRes_raises fun _ _ => signSubmit_raises hH hw

/-- **C85** (3Bots and ERC20 registrations, what holds). -/
theorem C85_bots_partial (W : World) (hH : Digest32 W.H) (src : Source) (refund : Recipient) :
    (∀ L months names addresses keyIndex, RaisesBefore W (W.recordNew L months names addresses keyIndex src refund)) ∧
    (∀ L id months na nr aa ar, RaisesBefore W (W.recordUpdate L id months na nr aa ar src refund)) ∧
    (∀ sender receiver names, RaisesBefore W (W.nameTransfer sender receiver names src refund)) ∧
    ∀ which, RaisesBefore W (W.addressRegister which src refund) := by
  have hk : ∀ (k : Keys) (o : Outcome (Tx × Bool)), RaisesBefore { W with keys := k } o → RaisesBefore W o := by
    intro k o h e he
    rcases h e he with h | ⟨t, w, h1, h2, h3⟩
    · exact .inl h
    · refine .inr ⟨t, w, h1, h2, ?_⟩
      cases h3 with
      | put e h => exact .put e h
      | addresses e h => exact .addresses e h
      | noId e h => exact .noId e h
      | tooMany h => exact .tooMany h
      | noAddress co e hc h => exact .noAddress co e hc h
      | notMulti co u hc hu h3 h => exact .notMulti co u hc hu h3 h
      | unknownMulti co u hc hu h3 h => exact .unknownMulti co u hc hu h3 h
  refine ⟨?_, ?_, ?_, ?_⟩
  · intros; exact ofRes_raises fun _ _ => ofRes_raises fun _ _ => ofRes_raises fun w hw => ofRes_raises fun _ _ => ofRes_raises fun k _ =>
      hk k.1 _ (signSubmit_raises (W := { W with keys := k.1 }) hH hw)
  · intros; exact ofRes_raises fun _ _ => ofRes_raises fun _ _ => ofRes_raises fun _ _ => ofRes_raises fun w hw => ofRes_raises fun _ _ =>
      signSubmit_raises hH hw
  · intros; exact ofRes_raises fun _ _ => ofRes_raises fun _ _ => ofRes_raises fun w hw => ofRes_raises fun _ _ => signSubmit_raises hH hw
  · intros; exact ofRes_raises fun k _ => ofRes_raises fun w hw => ofRes_raises fun _ _ => hk k.1 _ (signSubmit_raises (W := { W with keys := k.1 }) hH hw)

/-- **C85** (`minter.definition_set`, what holds). An exception means that nothing was submitted, or the explorers did not confirm the submission. -/
theorem C85_definition_set_partial (W : World) (nonce : Bytes) (minter : Recipient) (data : DataArg) (e : Err)
    (h : (W.definitionSet nonce minter data).result = .error e) : (W.definitionSet nonce minter data).posted = [] ∨
      ∃ t, (W.definitionSet nonce minter data).posted = [t] ∧ W.put t = .error e := by
  unfold World.definitionSet at h ⊢
  cases h1 : W.mintDefinition nonce minter data with
  | error e' => exact .inl rfl
  | ok t =>
    rw [h1] at h
    simp only [Outcome.ofRes] at h ⊢
    cases h2 : W.signNew t with
    | error e' => exact .inl rfl
    | ok t1 =>
      rw [h2] at h
      simp only [World.submitOnly] at h ⊢
      cases h3 : t1.isFulfilled with
      | error e' => exact .inl rfl
      | ok b =>
        rw [h3] at h
        simp only [Outcome.ofRes] at h ⊢
        cases b with
        | false => exact .inl rfl
        | true =>
          simp only [if_true] at h ⊢
          refine .inr ⟨t1, rfl, ?_⟩
          cases h4 : W.put t1 with
          | error e' => rw [h4] at h; cases h; rfl
          | ok x => rw [h4] at h; cases h

theorem spendOwnInputs_ok {W : World} {w0 : Wallets} {t : Tx} (hn : ¬ Trouble W w0 t) {addrs : List Str} {l : List CoinInput} : ∀ {w : Wallets},
    (∀ ci ∈ l, Concerns t ci.parentOutput) → (∀ b ∈ w0.wallets.map (·.1), b ∈ w.wallets.map (·.1)) →
    ∃ w', spendOwnInputs W.H addrs l w = .ok w' ∧ ∀ b ∈ w0.wallets.map (·.1), b ∈ w'.wallets.map (·.1) := by
  induction l with
  | nil => intro w _ hs; exact ⟨w, rfl, hs⟩
  | cons ci l ih =>
    intro w hc hs
    obtain ⟨u, hu, h3⟩ := trouble_or_adds hn (hc ci (by simp))
    simp only [spendOwnInputs, hu, bind, Except.bind]
    split
    · obtain ⟨w1, h1⟩ := addOrRaise_ok (w := w) (c := false) (s := true) hu fun h => ⟨(h3 h).1, hs _ (h3 h).2⟩
      simp only [h1]
      exact ih (fun c h => hc c (by simp [h])) fun b hb => addOrRaise_names h1 b (hs b hb)
    · exact ih (fun c h => hc c (by simp [h])) hs

/-- **C85** (`transaction_sign`, what holds): as `C85_coins_send_partial`. -/
theorem C85_transaction_sign_partial (W : World) (hH : Digest32 W.H) (t : Tx) (submit : Bool) : RaisesBefore W (W.transactionSign t submit) := by
  refine ofRes_raises fun w hw => ofRes_raises fun t0 _ => ofRes_raises fun rs _ => ?_
  split
  · intro e _; exact .inl rfl
  refine ofRes_raises fun x _ => ofRes_raises fun ok _ => ?_
  split
  · intro e he
    refine .inr ⟨x.1, w, rfl, hw, Classical.byContradiction fun hn => ?_⟩
    have : ∃ t2, W.afterSign w x.1 = .ok t2 := by
      unfold World.afterSign
      cases hp : W.put x.1 with
      | error e => exact absurd (.put e hp) hn
      | ok h =>
        cases ha : W.addresses with
        | error e => exact absurd (.addresses e ha) hn
        | ok addrs =>
          obtain ⟨w1, h1, hs⟩ := spendOwnInputs_ok hn (addrs := addrs ++ w.wallets.map (·.1)) (l := x.1.coinInputs.getD []) (w := w) (by
            intro ci hci
            cases hl : x.1.coinInputs with
            | none => rw [hl] at hci; simp at hci
            | some l => rw [hl] at hci; exact .spends l ci hl hci rfl) fun b hb => hb
          obtain ⟨y, h2⟩ := claimOutputs_ok hH hn (addrs := addrs ++ w.wallets.map (·.1)) (l := x.1.coinOutputs) (k := 0) (t := x.1) (w := w1) (fun co h => h)
            hs rfl rfl (by simp)
          simp only [bind, Except.bind, h1, h2]
          exact ⟨_, rfl⟩
    obtain ⟨t2, h2⟩ := this
    simp only [h2, bind, Except.bind, pure, Except.pure] at he
    cases he
  · intro e _; exact .inl rfl

/-- **C85 is false**: the answer to the submission may get lost. -/
theorem C85_answer_false : ∃ (W : World) (r : Recipient) (amt : CVal), (W.coinsSend r amt .none .none .none .none).posted.length = 1 ∧
    (W.coinsSend r amt .none .none .none .none).result = .error .explorerNotAvailable :=
  ⟨{ demoWorld with put := fun _ => .error .explorerNotAvailable }, .uh (addrOf key2), .int 8, by decide +kernel, by decide +kernel⟩

/-- **C85 is false** even if the network always answers: a payment to the address of a multi-signature wallet of its own is submitted, and then
`TypeError` is raised. -/
theorem C85_own_multisig_false : ∃ (W : World) (u : UnlockHash) (amt : CVal), (∀ t, (W.put t).isOk) ∧ W.addresses.isOk ∧
    (W.coinsSend (.uh u) amt .none .none .none .none).posted.length = 1 ∧
    (W.coinsSend (.uh u) amt .none .none .none .none).result = .error .typeError :=
  ⟨demoWorld, msAddr, .int 8, fun _ => rfl, rfl, by decide +kernel, by decide +kernel⟩

/-! ## C84 -/

theorem signSubmit_offered {W : World} {w : Wallets} {t0 : Tx} {l0 : List CoinInput} (hw : W.balance = .ok w) (hl : t0.coinInputs = some l0)
    (h : ∀ ci ∈ l0, ∃ co ∈ walletsSpendable w, ci.parentId = co.id) : SpendsOffered W (W.signSubmit w t0) := by
  intro t ht l hlt ci hci
  have hb := bare_inputs (signSubmit_produces ht)
  rw [hlt, hl] at hb
  simp only [Option.map_some, Option.some.injEq] at hb
  have : bareInput ci ∈ l0.map bareInput := by rw [← hb]; exact List.mem_map.2 ⟨ci, hci, rfl⟩
  obtain ⟨c0, hc0, he⟩ := List.mem_map.1 this
  obtain ⟨co, hco, hid⟩ := h c0 hc0
  refine ⟨w, co, hw, hco, ?_⟩
  have := congrArg CoinInput.parentId he
  simp only [bareInput] at this
  rw [← this]; exact hid

theorem ofRes_offered {α : Type} {W : World} {r : Res α} {f : α → Outcome (Tx × Bool)} (h : ∀ a, r = .ok a → SpendsOffered W (f a)) :
    SpendsOffered W (Outcome.ofRes r f) := by
  cases r with
  | error e => intro t ht; rcases ht with ht | ⟨b, ht⟩ <;> cases ht
  | ok a => exact h a rfl

theorem eligible_offered {H : Bytes → Bytes} {w : Wallets} {src : Source} {co : CoinOutput} (h : Eligible H w src co) : co ∈ walletsSpendable w := by
  cases h with
  | personal u offered _ _ => exact List.mem_append_left _ offered
  | multi name m u wallet offered _ _ _ => exact List.mem_append_right _ (List.mem_flatMap.2 ⟨_, wallet, offered⟩)

theorem fund_offered {H : Bytes → Bytes} {w : Wallets} {src : Source} {need : Currency} {ins : List CoinInput} {rem : Currency} {suggested : Option Condition}
    (hf : w.fund H need src = .ok (ins, rem, suggested)) : ∀ ci ∈ copyInputs ins, ∃ co ∈ walletsSpendable w, ci.parentId = co.id := by
  intro ci hci
  unfold copyInputs at hci
  obtain ⟨cj, hcj, rfl⟩ := List.mem_map.1 hci
  obtain ⟨co, g1, g2, g3⟩ := C53_eligible H w need src ins rem suggested hf cj hcj
  exact ⟨co, eligible_offered g1, g2⟩

theorem fundExtra_offered {W : World} {w : Wallets} {extra : Currency} {src : Source} {refund : Recipient} {x : List CoinInput × Option CoinOutput × Currency}
    (h : W.fundExtra w extra src refund = .ok x) : ∀ ci ∈ x.1, ∃ co ∈ walletsSpendable w, ci.parentId = co.id := by
  unfold World.fundExtra at h
  simp only [bind, Except.bind] at h
  split at h
  · cases h
  · split at h
    · cases h
    · rename_i x hx
      obtain ⟨ins', rem, suggested⟩ := x
      simp only at h
      split at h
      · cases h
      · split at h
        · split at h
          · cases h
          · cases h; exact fund_offered hx
        · cases h; exact fund_offered hx

theorem payment_offered {W : World} {w : Wallets} {outs : List CoinOutput} {sum : Currency} {src : Source} {refund : Recipient} {data : DataArg} {t : Tx}
    (h : W.payment w outs sum src refund data = .ok t) : ∃ l, t.coinInputs = some l ∧ ∀ ci ∈ l, ∃ co ∈ walletsSpendable w, ci.parentId = co.id := by
  unfold World.payment at h
  simp only [bind, Except.bind] at h
  split at h
  · cases h
  · split at h
    · cases h
    · rename_i x hx
      obtain ⟨ins, rem, suggested⟩ := x
      simp only at h
      repeat' split at h
      all_goals first
        | (cases h; done)
        | (cases h; exact ⟨_, rfl, fund_offered hx⟩)

/-- Every paying operation spends outputs only that the balance offered when it began. -/
theorem C84_offered_partial (W : World) (src : Source) (refund : Recipient) :
    (∀ r amt lock data, SpendsOffered W (W.coinsSend r amt src refund lock data)) ∧
    (∀ b data, SpendsOffered W (W.builderSend b src refund data).2) ∧
    (∀ L months names addresses keyIndex, SpendsOffered W (W.recordNew L months names addresses keyIndex src refund)) ∧
    (∀ L id months na nr aa ar, SpendsOffered W (W.recordUpdate L id months na nr aa ar src refund)) ∧
    (∀ sender receiver names, SpendsOffered W (W.nameTransfer sender receiver names src refund)) ∧
    ∀ which, SpendsOffered W (W.addressRegister which src refund) := by
  have hk : ∀ (k : Keys) (o : Outcome (Tx × Bool)), SpendsOffered { W with keys := k } o → SpendsOffered W o := fun _ _ h => h
  refine ⟨?_, ?_, ?_, ?_, ?_, ?_⟩
  · intro r amt lock data
    unfold World.coinsSend
    split
    · split
      · refine ofRes_offered fun w hw => ofRes_offered fun t ht => ?_
        unfold World.erc20Payment at ht
        simp only [bind, Except.bind] at ht
        split at ht
        · cases ht
        · split at ht
          · cases ht
          · split at ht
            · cases ht
            · rename_i x hx
              cases ht
              exact signSubmit_offered hw rfl (fundExtra_offered hx)
      · intro t ht; rcases ht with ht | ⟨b, ht⟩ <;> cases ht
    · refine ofRes_offered fun w hw => ofRes_offered fun t ht => ?_
      unfold World.coinPayment at ht
      simp only [bind, Except.bind] at ht
      split at ht
      · cases ht
      · split at ht
        · cases ht
        · obtain ⟨l, h1, h2⟩ := payment_offered ht
          exact signSubmit_offered hw h1 h2
  · intro b data
    unfold World.builderSend
    simp only
    split
    · intro t ht; rcases ht with ht | ⟨b, ht⟩ <;> cases ht
    · refine ofRes_offered fun w hw => ofRes_offered fun t ht => ?_
      unfold World.builderTx at ht
      simp only [bind, Except.bind] at ht
      split at ht
      · cases ht
      · obtain ⟨l, h1, h2⟩ := payment_offered ht
        exact signSubmit_offered hw h1 h2
  · intros; exact ofRes_offered fun _ _ => ofRes_offered fun _ _ => ofRes_offered fun w hw => ofRes_offered fun _ hx => ofRes_offered fun k _ =>
      hk k.1 _ (signSubmit_offered (W := { W with keys := k.1 }) hw rfl (fundExtra_offered hx))
  · intros; exact ofRes_offered fun _ _ => ofRes_offered fun _ _ => ofRes_offered fun _ _ => ofRes_offered fun w hw => ofRes_offered fun _ hx =>
      signSubmit_offered hw rfl (fundExtra_offered hx)
  · intros; exact ofRes_offered fun _ _ => ofRes_offered fun _ _ => ofRes_offered fun w hw => ofRes_offered fun _ hx =>
      signSubmit_offered hw rfl (fundExtra_offered hx)
  · intros; exact ofRes_offered fun k _ => ofRes_offered fun w hw => ofRes_offered fun _ hx =>
      hk k.1 _ (signSubmit_offered (W := { W with keys := k.1 }) hw rfl (fundExtra_offered hx))

/-- **C84** (what holds). A payment does not double spend what an earlier transaction spends if the balance, by the time the payment begins, no longer
offers what that transaction spends. -/
theorem C84_no_double_spend_partial (W : World) (w : Wallets) (t t' : Tx) (src : Source) (refund : Recipient) (r : Recipient) (amt : CVal) (lock : LockVal)
    (data : DataArg) (hw : W.balance = .ok w)
    (hseen : ∀ l, t.coinInputs = some l → ∀ ci ∈ l, ∀ co ∈ walletsSpendable w, co.id ≠ ci.parentId)
    (h : Produces (W.coinsSend r amt src refund lock data) t') : ¬ DoubleSpend t t' := by
  rintro ⟨l, l', ci, ci', h1, h2, h3, h4, h5⟩
  obtain ⟨w', co, hw', hco, hid⟩ := (C84_offered_partial W src refund).1 r amt lock data t' h l' h2 ci' h4
  rw [hw] at hw'; cases hw'
  exact hseen l h1 ci h3 co hco (by rw [h5, hid])

/-- The demo wallet once the explorers report that the output of the first payment is spent by a transaction that is not confirmed yet. -/
def demoAfter : Wallets := walletsRun toyHash [.chain 1000 1000, .report coinB true false, .report coinA true false, .report coinC false false,
  .report coinM true false, .report coinA false true]
example : (∀ co ∈ walletsSpendable demoAfter, co.id ≠ coinA.id) ∧
    (({ demoWorld with balance := .ok demoAfter }.coinsSend (.uh (addrOf key2)) (.int 1) .none .none .none .none).posted.map fun (t : Tx) =>
      (t.coinInputs.getD []).map CoinInput.parentId) = [[coinB.id]] := by decide +kernel

/-- **C84 is false**: the wallet keeps no record of what it has spent. Unless the explorers already know of the first payment, a second one spends the
same output again. -/
theorem C84_double_spend_false : ∃ (W : World) (r : Recipient) (amt amt' : CVal) (t t' : Tx), (∀ t, (W.put t).isOk) ∧ W.addresses.isOk ∧
    (W.coinsSend r amt .none .none .none .none).posted = [t] ∧ (W.coinsSend r amt' .none .none .none .none).posted = [t'] ∧ t.coinOutputs ≠ t'.coinOutputs ∧
    DoubleSpend t t' := by
  have a1 : (demoWorld.coinsSend (.uh (addrOf key2)) (.int 8) .none .none .none .none).posted.length = 1 := by decide +kernel
  have a2 : (demoWorld.coinsSend (.uh (addrOf key2)) (.int 9) .none .none .none .none).posted.length = 1 := by decide +kernel
  obtain ⟨t, ht⟩ := List.length_eq_one_iff.1 a1
  obtain ⟨t', ht'⟩ := List.length_eq_one_iff.1 a2
  have b1 : (demoWorld.coinsSend (.uh (addrOf key2)) (.int 8) .none .none .none .none).posted.map (fun t => ((t.coinInputs.getD []).map CoinInput.parentId).head?) =
    [some coinA.id] := by decide +kernel
  have b2 : (demoWorld.coinsSend (.uh (addrOf key2)) (.int 9) .none .none .none .none).posted.map (fun t => ((t.coinInputs.getD []).map CoinInput.parentId).head?) =
    [some coinA.id] := by decide +kernel
  have c1 : (demoWorld.coinsSend (.uh (addrOf key2)) (.int 8) .none .none .none .none).posted.map (fun t => t.coinOutputs) ≠
    (demoWorld.coinsSend (.uh (addrOf key2)) (.int 9) .none .none .none .none).posted.map (fun t => t.coinOutputs) := by decide +kernel
  refine ⟨demoWorld, .uh (addrOf key2), .int 8, .int 9, t, t', fun _ => rfl, rfl, ht, ht', ?_, ?_⟩
  · intro e; apply c1; rw [ht, ht']; simp [e]
  · have key : ∀ t : Tx, ((t.coinInputs.getD []).map CoinInput.parentId).head? = some coinA.id → ∃ l ci, t.coinInputs = some l ∧ ci ∈ l ∧ ci.parentId = coinA.id := by
      intro t h
      cases hc : t.coinInputs with
      | none => rw [hc] at h; cases h
      | some l =>
        rw [hc] at h
        cases l with
        | nil => cases h
        | cons ci l => simp only [Option.getD_some, List.map_cons, List.head?_cons, Option.some.injEq] at h; exact ⟨_, ci, rfl, by simp, h⟩
    rw [ht] at b1; rw [ht'] at b2
    simp only [List.map_cons, List.map_nil, List.cons.injEq, and_true] at b1 b2
    obtain ⟨l, ci, h1, h2, h3⟩ := key t b1
    obtain ⟨l', ci', h1', h2', h3'⟩ := key t' b2
    exact ⟨l, l', ci, ci', h1, h1', h2, h2', h3.trans h3'.symm⟩

end TF.Props
