import Verif.Lemmas.Bare
import Verif.Lemmas.Overflow
import Verif.Props.Fund
/-!
# Properties C56, C57: payments
-/
namespace TF.Props
open TF Spec

/-! ## The refund -/

theorem suggestRefund_refund {W : World} {w : Wallets} {src : Source} {u : UnlockHash} {rf : Option Condition} (hs : SingleSource W.H src u)
    (huniq : ∀ v, SingleSource W.H src v → v = u) (ht : u.type = 1 ∨ u.type = 3)
    (h : w.suggestRefund W.H u = .ok rf) : ∀ c, W.refundCondition .none rf = .ok c → RefundTo W w src .none c := by
  intro c hc
  unfold Wallets.suggestRefund at h
  split at h
  · rename_i h1
    cases h
    cases hc
    exact .source u hs h1
  · rename_i h1
    have h3 : u.type = 3 := by rcases ht with ht | ht; exact absurd ht h1; exact ht
    split at h
    · rename_i hn
      cases h
      simp only [World.refundCondition, bind, Except.bind] at hc
      split at hc
      · cases hc
      · rename_i p hp
        cases hc
        refine .primary p (fun v hv => ?_) hp
        rw [huniq v hv]; exact ⟨h3, hn⟩
    · rename_i m hm
      simp only [bind, Except.bind] at h
      split at h
      · cases h
      · rename_i c' hc'
        cases h
        cases hc
        exact .multi u m _ hs h3 hm hc'

theorem argNames_unique {H : Bytes → Bytes} {s : SourceArg} {u v : UnlockHash} (h1 : ArgNames H s u) (h2 : ArgNames H s v) : v = u := by
  rw [← resolve_iff] at h1 h2
  rw [h1] at h2; cases h2; rfl

theorem splitSource_type {l p m : List UnlockHash} (h : splitSource l = .ok (p, m)) : ∀ u ∈ l, u.type = 1 ∨ u.type = 3 := (splitSource_mem h).2.2

/-- Whatever the arguments, the remainder goes where it should. -/
theorem refund_to {W : World} {w : Wallets} {src : Source} {refund : Recipient} {addrs ms : List UnlockHash} {rf : Option Condition} {c : Condition}
    (h : w.sources W.H src = .ok (addrs, ms, rf)) (hc : W.refundCondition refund rf = .ok c) : RefundTo W w src refund c := by
  cases refund with
  | none =>
    have prim : rf = none → (∀ v, ¬ SingleSource W.H src v) → RefundTo W w src .none c := by
      intro hrf hns
      subst hrf
      simp only [World.refundCondition, bind, Except.bind] at hc
      split at hc
      · cases hc
      · rename_i p hp
        cases hc
        exact .primary p (fun v hv => absurd hv (hns v)) hp
    cases src with
    | none =>
      simp only [Wallets.sources, bind, Except.bind] at h
      split at h
      · cases h
      · split at h
        · cases h
        · cases h
          refine prim rfl ?_
          rintro v (⟨s, h1, _⟩ | ⟨s, h1, _⟩) <;> cases h1
    | one s =>
      simp only [Wallets.sources, bind, Except.bind] at h
      split at h
      · cases h
      · rename_i u hu
        split at h
        · cases h
        · rename_i x hx
          split at h
          · cases h
          · rename_i r hr
            cases h
            have hu' := resolve_iff.1 hu
            refine suggestRefund_refund (.inl ⟨s, rfl, hu'⟩) ?_ (splitSource_type hx u (by simp)) hr c hc
            rintro v (⟨s', e, hv⟩ | ⟨s', e, _⟩)
            · cases e; exact argNames_unique hu' hv
            · cases e
    | list l =>
      simp only [Wallets.sources, bind, Except.bind] at h
      split at h
      · cases h
      · rename_i us hus
        split at h
        · cases h
        · rename_i x hx
          split at h
          · rename_i u
            split at h
            · cases h
            · rename_i r hr
              cases h
              have hm : u ∈ us := (mapM_ok_mem hus u).2 ⟨.uh u, by simp, rfl⟩
              refine suggestRefund_refund (u := u) (.inr ⟨.uh u, rfl, rfl⟩) ?_ (splitSource_type hx u hm) hr c hc
              rintro v (⟨s', e, _⟩ | ⟨s', e, hv⟩)
              · cases e
              · cases e; exact hv
          · cases h
          · rename_i h1 h2
            cases h
            refine prim rfl ?_
            rintro v (⟨s', e, _⟩ | ⟨s', e, hv⟩)
            · cases e
            · cases e; exact h2 s' rfl
  | _ => exact .given _ c (by simp) hc

/-! ## The funded transaction -/

theorem copyInputs_ids (l : List CoinInput) : (copyInputs l).map CoinInput.parentOutput = l.map CoinInput.parentOutput := by
  unfold copyInputs
  rw [List.map_map]
  exact List.map_congr_left fun ci _ => rfl

theorem ofOutput_fresh {co : CoinOutput} {ci : CoinInput} (h : CoinInput.ofOutput co = .ok ci) :
    ci.fulfillment = .single .default none ∨ ci.fulfillment = .multi [] ∨ ci.fulfillment = .swap .default none none := by
  unfold CoinInput.ofOutput at h
  simp only [bind, Except.bind] at h
  split at h
  · cases h
  · rename_i f hf
    cases h
    unfold fulfillmentFromCondition at hf
    split at hf
    · cases hf; exact .inl rfl
    · cases hf; exact .inr (.inr rfl)
    · split at hf <;> cases hf
      · exact .inl rfl
      · exact .inl rfl
      · exact .inr (.inl rfl)

theorem fund_fresh {H : Bytes → Bytes} {w : Wallets} {src : Source} {need : Currency} {ins : List CoinInput} {rem : Currency} {suggested : Option Condition}
    (hf : w.fund H need src = .ok (ins, rem, suggested)) : ∀ ci ∈ copyInputs ins, Fresh ci.fulfillment := by
  obtain ⟨addrs, ms, outs, c, h1, h2, _⟩ := fund_ok hf
  intro ci hci
  unfold copyInputs at hci
  obtain ⟨cj, hcj, rfl⟩ := List.mem_map.1 hci
  obtain ⟨co, _, hco⟩ := (mapM_ok_mem h2 cj).1 hcj
  rcases ofOutput_fresh hco with e | e | e
  · exact .inl e
  · exact .inr (.inl e)
  · exact .inr (.inr ⟨_, e⟩)

/-- What funding provides, with the sum of what is needed. -/
theorem fund_facts {W : World} {w : Wallets} {src : Source} {refund : Recipient} {a b need : Currency} {ins : List CoinInput} {rem : Currency}
    {suggested : Option Condition} (ha : GoodCurrency a) (hb : GoodCurrency b) (hs : SaneOutputs (walletsSpendable w))
    (hn : a.add (.cur b) = .ok need) (hf : w.fund W.H need src = .ok (ins, rem, suggested)) :
    amount need = amount a + amount b ∧ amount need < 10 ^ 28 ∧ GoodCurrency rem ∧ inputsTotal (copyInputs ins) = amount a + amount b + amount rem ∧
    (copyInputs ins).length ≤ 99 ∧
    (∀ ci ∈ copyInputs ins, ∃ co, Eligible W.H w src co ∧ ci.parentId = co.id ∧ ci.parent = some co) ∧
    (∀ c, W.refundCondition refund suggested = .ok c → RefundTo W w src refund c) := by
  have hg := add_good hn
  have h51 := C51_funding_conserves_partial W.H w need src ins rem suggested hg hs hf
  obtain ⟨addrs, ms, outs, c, h1, h2, h3, h4, h5, h6⟩ := fund_ok hf
  have hlt : inputsTotal ins < 10 ^ 28 := by
    unfold inputsTotal
    rw [(ofOutputs_spec h2).1]
    obtain ⟨l, hp, hsub⟩ := h5
    rw [← total_perm hp]
    exact Nat.lt_of_le_of_lt (total_sublist (hsub.trans (elig_sublist W.H w addrs ms))) hs.2
  have hneed : amount need = amount a + amount b := by
    rcases add_big ha hb hn with e | e
    · exact e
    · omega
  refine ⟨hneed, by omega, sub_good h3, ?_, ?_, ?_, fun c hc => refund_to h1 hc⟩
  · unfold inputsTotal at h51 ⊢
    rw [copyInputs_ids, h51, hneed]
  · have := C52_input_limit W.H w need src ins rem suggested hf
    unfold copyInputs; rw [List.length_map]; exact this
  · intro ci hci
    unfold copyInputs at hci
    obtain ⟨cj, hcj, rfl⟩ := List.mem_map.1 hci
    obtain ⟨co, g1, g2, g3⟩ := C53_eligible W.H w need src ins rem suggested hf cj hcj
    exact ⟨co, g1, g2, by simp [CoinInput.parentOutput, g3]⟩

theorem good_zeroCur : GoodCurrency zeroCur := ⟨rfl, by decide⟩
theorem amount_zeroCur : amount zeroCur = 0 := by decide

theorem dataIf_payload {d : DataArg} {b : Bytes} (h : dataIf d = .ok b) : payload d = some b := by
  unfold dataIf at h
  split at h
  · unfold setData at h
    split at h <;> (try split at h) <;> cases h <;> rfl
  · rename_i ht
    cases h
    cases d <;> simp_all [DataArg.truthy, payload]
    rfl

theorem payment_spec {W : World} {w : Wallets} {outs : List CoinOutput} {sum : Currency} {src : Source} {refund : Recipient} {data : DataArg} {t : Tx}
    (hs : SaneOutputs (walletsSpendable w)) (hfee : GoodCurrency W.fee) (hsum : GoodCurrency sum)
    (hex : amount sum = total outs ∨ 10 ^ 28 ≤ amount sum)
    (h : W.payment w outs sum src refund data = .ok t) :
    IsPayment W w (outs.map fun co => (amount co.value, co.condition)) src refund data t := by
  unfold World.payment at h
  simp only [bind, Except.bind] at h
  split at h
  · cases h
  · rename_i need hneed
    split at h
    · cases h
    · rename_i x hx
      obtain ⟨ins, rem, suggested⟩ := x
      simp only at h
      split at h
      · cases h
      · rename_i rf hrf
        split at h
        · cases h
        · rename_i fee hfe
          split at h
          · cases h
          · rename_i d hd
            cases h
            obtain ⟨g1, g2, g3, g4, g5, g6, g8⟩ := fund_facts (refund := refund) hsum hfee hs hneed hx
            have hex' : amount sum = total outs := by rcases hex with e | e; exact e; omega
            have hfee' : amount fee = amount W.fee := by cases hfe; rfl
            refine ⟨⟨_, rfl, rfl, rfl, rfl, dataIf_payload hd⟩, ?_, ?_, ?_⟩
            · by_cases hz : zeroCur.lt rem = true
              · refine ⟨[(amount rem, rf)], by simp [Tx.coinOutputs, hz], .inr ⟨_, _, rfl, ?_, g8 rf hrf⟩⟩
                have := (cmp_units good_zeroCur g3).1.1 hz
                have h0 := amount_zeroCur
                unfold amount at h0 ⊢; omega
              · exact ⟨[], by simp [Tx.coinOutputs, hz], .inl rfl⟩
            · simp [Tx.minerFees, hfee']
            · refine ⟨_, rfl, g5, g6, ?_⟩
              rw [g4, hex']
              simp only [Tx.coinOutputs]
              by_cases hz : zeroCur.lt rem = true
              · simp [hz, total]; omega
              · have hz' : amount rem = 0 := by
                  have := (cmp_units good_zeroCur g3).1.not.1 (by simpa [Currency.lt] using hz)
                  have h0 := amount_zeroCur
                  unfold amount at h0 ⊢; omega
                simp [hz, total, hz']

theorem positive_spec {v : CVal} {a : Currency} (hv : ∀ c, v = .cur c → GoodCurrency c) (h : positiveAmount v = .ok a) :
    Currency.set v = .ok a ∧ GoodCurrency a ∧ 0 < amount a := by
  unfold positiveAmount at h
  simp only [bind, Except.bind] at h
  split at h
  · cases h
  · rename_i a' ha
    split at h
    · cases h
    · rename_i hle
      cases h
      have hg := currency_set_good hv ha
      refine ⟨ha, hg, ?_⟩
      have := (le_amount hg good_zeroCur).not.1 hle
      rw [amount_zeroCur] at this
      omega

/-- A wallet with one key, the funds of `wal1` and three multi-signature TFT it shares with another party. -/
def demoWorld : World where
  H := toyHash
  sign := fun k m => (k.hash.value ++ m).take 64
  keys := { seed := [], pairs := [((addrOf key1).str toyHash, key1)], primary := (addrOf key1).str toyHash }
  fee := ⟨some ⟨false, 1, -1⟩⟩
  balance := .ok (walletsRun toyHash [.chain 1000 1000, .report coinB true false, .report coinA true false, .report coinC false false, .report coinM true false])
  addresses := .ok [(addrOf key1).str toyHash]
  put := fun _ => .ok ⟨List.replicate 32 0⟩

/-- What the outcome shows: the amounts and conditions of the outputs of each posted transaction, and the answer. -/
def shown (o : Outcome (Tx × Bool)) : List (List (Nat × Condition)) × Option (List (Nat × Condition) × Bool) :=
  let outs (t : Tx) := t.coinOutputs.map fun co => (amount co.value, co.condition)
  (o.posted.map outs, match o.result with
    | .ok (t, b) => some (outs t, b)
    | .error _ => none)

/-! ## C56 -/

/-- **C56** (what holds: `coins_send`). Let the wallet hold legal amounts adding up to less than 10^28 smallest units. Whatever `coins_send` to
a chain recipient posts or returns, the amount and recipient are legal and it is a payment of exactly that amount to exactly that recipient. -/
theorem C56_coins_send_partial (W : World) (w : Wallets) (r : Recipient) (amt : CVal) (src : Source) (refund : Recipient) (lock : LockVal)
    (data : DataArg) (t : Tx) (hw : W.balance = .ok w) (hs : SaneOutputs (walletsSpendable w)) (hfee : GoodCurrency W.fee)
    (hamt : ∀ c, amt = .cur c → GoodCurrency c) (hr : r.erc20? = none) (ht : Produces (W.coinsSend r amt src refund lock data) t) :
    ∃ pay, asked W.H r amt lock = some pay ∧ IsPayment W w [pay] src refund data t := by
  unfold World.coinsSend at ht
  rw [hr] at ht
  simp only at ht
  obtain ⟨w', hw', ht⟩ := ofRes_produces ht
  rw [hw] at hw'; cases hw'
  obtain ⟨t0, ht0, ht⟩ := ofRes_produces ht
  have hb := signSubmit_produces ht
  unfold World.coinPayment at ht0
  simp only [bind, Except.bind] at ht0
  split at ht0
  · cases ht0
  · rename_i a ha
    split at ht0
    · cases ht0
    · rename_i c hc
      obtain ⟨h1, h2, h3⟩ := positive_spec hamt ha
      refine ⟨(amount a, c), by simp [asked, h1, hc, h3], isPayment_bare hb ?_⟩
      exact (payment_spec hs hfee h2 (.inl (by simp [total])) ht0)

example : shown (demoWorld.coinsSend (.uh (addrOf key2)) (.int 8) .none .none .none .none) =
    ([[(8000000000, .unlockHash (addrOf key2)), (3900000000, .unlockHash (addrOf key1))]],
      some ([(8000000000, .unlockHash (addrOf key2)), (3900000000, .unlockHash (addrOf key1))], true)) := by decide +kernel
example : SaneOutputs (walletsSpendable (walletsRun toyHash [.chain 1000 1000, .report coinB true false, .report coinA true false, .report coinC false false,
    .report coinM true false])) := by
  constructor
  · intro co hco
    rw [show walletsSpendable _ = [coinB, coinA, coinC, coinM] by decide +kernel] at hco
    simp only [List.mem_cons, List.not_mem_nil, or_false] at hco
    rcases hco with rfl | rfl | rfl | rfl <;> exact ⟨rfl, by decide⟩
  · decide +kernel
example : GoodCurrency demoWorld.fee ∧ (Recipient.uh (addrOf key2)).erc20? = none ∧
    asked toyHash (.uh (addrOf key2)) (.int 8) .none = some (8000000000, .unlockHash (addrOf key2)) := ⟨⟨rfl, by decide⟩, rfl, by decide +kernel⟩

/-- A builder after a history of `output_add` calls, failed ones included. -/
def builderRun (W : World) (adds : List (Recipient × CVal × LockVal)) : Builder :=
  adds.foldl (fun b p => (W.builderAdd b p.1 p.2.1 p.2.2).1) (some [])

theorem builderAdd_open {W : World} {outs : List CoinOutput} {p : Recipient × CVal × LockVal} (hp : ∀ c, p.2.1 = .cur c → GoodCurrency c) :
    ∃ new : List CoinOutput, (W.builderAdd (some outs) p.1 p.2.1 p.2.2).1 = some (outs ++ new) ∧ (∀ co ∈ new, GoodCurrency co.value) ∧
      new.map (fun co => (amount co.value, co.condition)) = (asked W.H p.1 p.2.1 p.2.2).toList := by
  unfold World.builderAdd
  simp only
  cases ha : positiveAmount p.2.1 with
  | error e =>
    refine ⟨[], by simp, by simp, ?_⟩
    unfold positiveAmount at ha
    unfold asked
    cases hset : Currency.set p.2.1 with
    | error e => rfl
    | ok a =>
      cases hc : fromRecipient W.H p.1 p.2.2 with
      | error e => rfl
      | ok c =>
        rw [hset] at ha
        simp only [bind, Except.bind] at ha
        split at ha
        · rename_i hle
          have := (le_amount (currency_set_good hp hset) good_zeroCur).1 hle
          rw [amount_zeroCur] at this
          simp only [if_neg (by omega : ¬ 0 < amount a)]; rfl
        · cases ha
  | ok a =>
    obtain ⟨h1, h2, h3⟩ := positive_spec hp ha
    cases hc : fromRecipient W.H p.1 p.2.2 with
    | error e => exact ⟨[], by simp, by simp, by simp [asked, hc, h1]⟩
    | ok c => exact ⟨[⟨a, c, ⟨[]⟩⟩], by simp, by simp [h2], by simp [asked, hc, h1, h3]⟩

theorem builderRun_open (W : World) : ∀ (adds : List (Recipient × CVal × LockVal)) (outs : List CoinOutput)
    (_ : ∀ p ∈ adds, ∀ c, p.2.1 = .cur c → GoodCurrency c),
    ∃ new : List CoinOutput, adds.foldl (fun b p => (W.builderAdd b p.1 p.2.1 p.2.2).1) (some outs) = some (outs ++ new) ∧ (∀ co ∈ new, GoodCurrency co.value) ∧
      new.map (fun co => (amount co.value, co.condition)) = adds.filterMap fun p => asked W.H p.1 p.2.1 p.2.2 := by
  intro adds
  induction adds with
  | nil => intro outs _; exact ⟨[], by simp, by simp, rfl⟩
  | cons p l ih =>
    intro outs h
    obtain ⟨n1, e1, g1, m1⟩ := builderAdd_open (W := W) (outs := outs) (h p List.mem_cons_self)
    obtain ⟨n2, e2, g2, m2⟩ := ih (outs ++ n1) (fun q hq => h q (List.mem_cons_of_mem _ hq))
    refine ⟨n1 ++ n2, ?_, ?_, ?_⟩
    · rw [List.foldl_cons, e1, e2, List.append_assoc]
    · intro co hco
      rcases List.mem_append.1 hco with h | h
      exact g1 co h
      exact g2 co h
    · rw [List.map_append, m1, m2, List.filterMap_cons]
      cases asked W.H p.1 p.2.1 p.2.2 <;> rfl

/-- **C56** (what holds: the transaction builder). After any history of `output_add` calls, whatever `send` posts or returns is a payment of
exactly the legal amounts and recipients that were added, in order. -/
theorem C56_builder_send_partial (W : World) (w : Wallets) (adds : List (Recipient × CVal × LockVal)) (src : Source) (refund : Recipient)
    (data : DataArg) (t : Tx) (hw : W.balance = .ok w) (hs : SaneOutputs (walletsSpendable w)) (hfee : GoodCurrency W.fee)
    (hamt : ∀ p ∈ adds, ∀ c, p.2.1 = .cur c → GoodCurrency c)
    (ht : Produces (W.builderSend (builderRun W adds) src refund data).2 t) :
    IsPayment W w (adds.filterMap fun p => asked W.H p.1 p.2.1 p.2.2) src refund data t := by
  obtain ⟨outs, e, hg, hm⟩ := builderRun_open W adds [] hamt
  unfold builderRun at ht
  rw [e] at ht
  simp only [World.builderSend, List.nil_append] at ht
  obtain ⟨w', hw', ht⟩ := ofRes_produces ht
  rw [hw] at hw'; cases hw'
  obtain ⟨t0, ht0, ht⟩ := ofRes_produces ht
  refine isPayment_bare (signSubmit_produces ht) ?_
  unfold World.builderTx at ht0
  simp only [bind, Except.bind] at ht0
  split at ht0
  · cases ht0
  · rename_i sum hsum
    unfold sumCurrency at hsum
    obtain ⟨h1, h2, _⟩ := foldAdd_big (l := outs.map CoinOutput.value) (by
      intro c hc; obtain ⟨co, hco, rfl⟩ := List.mem_map.1 hc; exact hg co hco) good_zeroCur hsum
    rw [← hm]
    refine (payment_spec hs hfee h1 ?_ ht0)
    rcases h2 with h2 | h2
    · left
      rw [h2, amount_zeroCur, Nat.zero_add]
      unfold total
      rw [List.map_map]; rfl
    · exact .inr h2

example : shown (demoWorld.builderSend (builderRun demoWorld [(.uh (addrOf key2), .int 8, .none), (.uh (addrOf key2), .int 0, .none),
      (.uh (addrOf key1), .str "1.5".toList, .none)]) .none (.uh (addrOf key2)) (.str "hello".toList)).2 =
    ([[(8000000000, .unlockHash (addrOf key2)), (1500000000, .unlockHash (addrOf key1)), (2400000000, .unlockHash (addrOf key2))]],
      some ([(8000000000, .unlockHash (addrOf key2)), (1500000000, .unlockHash (addrOf key1)), (2400000000, .unlockHash (addrOf key2))], true)) := by
  decide +kernel

/-- **C56** (the builder is used once). `send` consumes the builder, whatever happens; a consumed builder accepts no output and sends nothing. -/
theorem C56_builder_once (W : World) (b : Builder) (src : Source) (refund : Recipient) (data : DataArg) :
    (W.builderSend b src refund data).1 = none ∧
    (∀ r amt lock, ∃ e, W.builderAdd none r amt lock = (none, some e)) ∧
    ∀ t, ¬ Produces (W.builderSend none src refund data).2 t := by
  refine ⟨rfl, fun r amt lock => ⟨_, rfl⟩, ?_⟩
  rintro t (h | ⟨b, h⟩) <;> cases h

theorem fundExtra_spec {W : World} {w : Wallets} {extra : Currency} {src : Source} {refund : Recipient} {ins : List CoinInput} {rf : Option CoinOutput}
    {fee : Currency} (hs : SaneOutputs (walletsSpendable w)) (hfee : GoodCurrency W.fee) (hx : GoodCurrency extra)
    (h : W.fundExtra w extra src refund = .ok (ins, rf, fee)) :
    amount fee = amount W.fee ∧ (rf = none ∨ ∃ co, rf = some co ∧ 0 < amount co.value ∧ RefundTo W w src refund co.condition) ∧
    ins.length ≤ 99 ∧ (∀ ci ∈ ins, ∃ co, Eligible W.H w src co ∧ ci.parentId = co.id ∧ ci.parent = some co) ∧
    inputsTotal ins = amount extra + amount W.fee + total rf.toList := by
  unfold World.fundExtra at h
  simp only [bind, Except.bind] at h
  split at h
  · cases h
  · rename_i need hneed
    split at h
    · cases h
    · rename_i x hxx
      obtain ⟨ins', rem, suggested⟩ := x
      simp only at h
      obtain ⟨g1, g2, g3, g4, g5, g6, g8⟩ := fund_facts (refund := refund) hfee hx hs hneed hxx
      split at h
      · cases h
      · rename_i fee' hfe
        have hfee' : amount fee' = amount W.fee := by cases hfe; rfl
        split at h
        · rename_i hz
          split at h
          · cases h
          · rename_i c hc
            cases h
            have hpos := (lt_amount good_zeroCur g3).1 hz
            rw [amount_zeroCur] at hpos
            refine ⟨hfee', .inr ⟨_, rfl, hpos, g8 c hc⟩, g5, g6, ?_⟩
            rw [g4]; simp [total]; omega
        · rename_i hz
          cases h
          have hz' := (lt_amount good_zeroCur g3).not.1 hz
          rw [amount_zeroCur] at hz'
          refine ⟨hfee', .inl rfl, g5, g6, ?_⟩
          rw [g4]; simp [total]; omega

/-- **C56** (what holds: sending to an ERC20 address, directly or through `coins_send`). Whatever is posted or returned is an ERC20 transfer of
exactly the amount to exactly the address, and it is funded exactly. -/
theorem C56_erc20_send_partial (W : World) (w : Wallets) (addr : BVal) (amt : CVal) (src : Source) (refund : Recipient) (t : Tx)
    (hw : W.balance = .ok w) (hs : SaneOutputs (walletsSpendable w)) (hfee : GoodCurrency W.fee) (hamt : ∀ c, amt = .cur c → GoodCurrency c)
    (ht : Produces (W.erc20Send addr amt src refund) t) :
    ∃ a v, Currency.set amt = .ok a ∧ 0 < amount a ∧ t = .v208 v ∧ erc20New 20 addr = .ok v.address ∧ amount v.value = amount a ∧
      IsFunded W w (amount a) src refund t := by
  unfold World.erc20Send at ht
  obtain ⟨w', hw', ht⟩ := ofRes_produces ht
  rw [hw] at hw'; cases hw'
  obtain ⟨t0, ht0, ht⟩ := ofRes_produces ht
  have hb := signSubmit_produces ht
  unfold World.erc20Payment at ht0
  simp only [bind, Except.bind] at ht0
  split at ht0
  · cases ht0
  · rename_i a ha
    obtain ⟨h1, h2, h3⟩ := positive_spec hamt ha
    split at ht0
    · cases ht0
    · rename_i ad had
      split at ht0
      · cases ht0
      · rename_i x hx
        obtain ⟨ins, rf, fee⟩ := x
        cases ht0
        obtain ⟨e1, e2, e3, e4, e6⟩ := fundExtra_spec hs hfee h2 hx
        have hf : IsFunded W w (amount a) src refund (.v208 { address := ad, value := a, fee := some fee, coinInputs := ins, refund := rf }) := by
          refine ⟨by simp [Tx.minerFees, e1], ?_, ins, rfl, e3, e4, e6⟩
          rcases e2 with e | ⟨co, e, h⟩
          · exact .inl (by simp [Tx.coinOutputs, e])
          · exact .inr ⟨co, by simp [Tx.coinOutputs, e], h⟩
        have hf' := isFunded_bare hb hf
        cases t <;> simp only [bare, reduceCtorEq] at hb
        rename TxV208 => v
        simp only [Tx.v208.injEq, TxV208.mk.injEq] at hb
        exact ⟨a, v, h1, h3, rfl, by rw [hb.1]; exact had, by rw [hb.2.1], hf'⟩

example : shown (demoWorld.erc20Send (.bytes (List.replicate 20 5)) (.int 8) .none .none) =
    ([[(3900000000, .unlockHash (addrOf key1))]], some ([(3900000000, .unlockHash (addrOf key1))], true)) := by decide +kernel
example : demoWorld.coinsSend (.bytes (List.replicate 20 5)) (.int 8) .none .none .none .none =
    demoWorld.erc20Send (.bytes (List.replicate 20 5)) (.int 8) .none .none := rfl

/-! ## C57 -/

theorem signSubmit_signed {W : World} {w : Wallets} {t0 : Tx} (hu : Unsigned t0) (hd : DistinctParties W.H t0) (hc : t0.coinInputs ≠ none) :
    SubmitsSigned W (W.signSubmit w t0) := by
  rcases signSubmit_spec _ (rfl : W.signSubmit w t0 = _) with ⟨e, ho⟩ | ⟨t1, hs, hb, ⟨hf, ho⟩ | ⟨hf, ho⟩⟩
  · rw [ho]
    exact ⟨by simp, by simp, by simp, by simp⟩
  · rw [ho]
    refine ⟨by simp, ?_, ?_, ?_⟩
    · intro t ht
      simp only [List.mem_singleton] at ht
      rw [ht]
      exact (signNew_inv hd hu hs).signed hf hc
    · intro t h
      simp only [bind, Except.bind] at h
      split at h
      · cases h
      · rename_i t2 h2
        cases h
        exact ⟨t1, rfl, afterPost_bare h2⟩
    · intro t h
      simp only [bind, Except.bind] at h
      split at h <;> cases h
  · rw [ho]
    refine ⟨by simp, by simp, by simp, ?_⟩
    intro t h
    cases h
    exact ⟨rfl, fun hs => signed_fulfilled hs hf⟩

theorem ofRes_signed {W : World} {α : Type} {r : Res α} {f : α → Outcome (Tx × Bool)} (h : ∀ a, r = .ok a → SubmitsSigned W (f a)) :
    SubmitsSigned W (Outcome.ofRes r f) := by
  cases r with
  | error e => exact ⟨by simp [Outcome.ofRes], by simp [Outcome.ofRes], by simp [Outcome.ofRes], by simp [Outcome.ofRes]⟩
  | ok a => exact h a rfl

theorem payment_signed {W : World} {w : Wallets} {outs : List CoinOutput} {sum : Currency} {src : Source} {refund : Recipient} {data : DataArg} {t : Tx}
    (h : W.payment w outs sum src refund data = .ok t) : SubmitsSigned W (W.signSubmit w t) := by
  unfold World.payment at h
  simp only [bind, Except.bind] at h
  split at h
  · cases h
  · split at h
    · cases h
    · rename_i x hx
      obtain ⟨ins, rem, suggested⟩ := x
      simp only at h
      split at h
      · cases h
      · split at h
        · cases h
        · split at h
          · cases h
          · cases h
            refine signSubmit_signed ⟨by simp [IsLegacy], ?_, by simp [selfSignatures], by simp [mintPart]⟩ (fun m e => by cases e) (by simp [Tx.coinInputs])
            intro l hl
            cases hl
            exact fund_fresh hx

theorem fundExtra_fresh {W : World} {w : Wallets} {extra : Currency} {src : Source} {refund : Recipient} {x : List CoinInput × Option CoinOutput × Currency}
    (h : W.fundExtra w extra src refund = .ok x) : ∀ ci ∈ x.1, Fresh ci.fulfillment := by
  unfold World.fundExtra at h
  simp only [bind, Except.bind] at h
  split at h
  · cases h
  · split at h
    · cases h
    · rename_i x hx
      obtain ⟨ins', rem, suggested⟩ := x
      simp only at h
      split at h
      · cases h
      · split at h
        · split at h
          · cases h
          · cases h; exact fund_fresh hx
        · cases h; exact fund_fresh hx

theorem erc20Send_signed (W : World) (addr : BVal) (amt : CVal) (src : Source) (refund : Recipient) :
    SubmitsSigned W (W.erc20Send addr amt src refund) := by
  refine ofRes_signed fun w _ => ofRes_signed fun t ht => ?_
  unfold World.erc20Payment at ht
  simp only [bind, Except.bind] at ht
  split at ht
  · cases ht
  · split at ht
    · cases ht
    · split at ht
      · cases ht
      · rename_i x hx
        cases ht
        refine signSubmit_signed ⟨by simp [IsLegacy], ?_, by simp [selfSignatures], by simp [mintPart]⟩ (fun m e => by cases e) (by simp [Tx.coinInputs])
        intro l hl
        cases hl
        exact fundExtra_fresh hx

/-- **C57** (`coins_send`, to any recipient, with any arguments, in any state of the wallet and whatever the network answers). -/
theorem C57_coins_send (W : World) (r : Recipient) (amt : CVal) (src : Source) (refund : Recipient) (lock : LockVal) (data : DataArg) :
    SubmitsSigned W (W.coinsSend r amt src refund lock data) := by
  unfold World.coinsSend
  split
  · split
    · exact erc20Send_signed ..
    · exact ⟨by simp, by simp, by simp, by simp⟩
  · refine ofRes_signed fun w _ => ofRes_signed fun t ht => ?_
    unfold World.coinPayment at ht
    simp only [bind, Except.bind] at ht
    split at ht
    · cases ht
    · split at ht
      · cases ht
      · exact payment_signed ht

/-- A payment from a shared address is signed once, returned and not posted. -/
example : shown (demoWorld.coinsSend (.uh (addrOf key2)) (.int 2) (.one (.uh msAddr)) .none .none .none) =
    ([], some ([(2000000000, .unlockHash (addrOf key2)), (900000000, coinM.condition)], false)) := by decide +kernel

/-- **C57** (the transaction builder). -/
theorem C57_builder_send (W : World) (b : Builder) (src : Source) (refund : Recipient) (data : DataArg) :
    SubmitsSigned W (W.builderSend b src refund data).2 := by
  unfold World.builderSend
  simp only
  split
  · exact ⟨by simp, by simp, by simp, by simp⟩
  · refine ofRes_signed fun w _ => ofRes_signed fun t ht => ?_
    unfold World.builderTx at ht
    simp only [bind, Except.bind] at ht
    split at ht
    · cases ht
    · exact payment_signed ht

/-- **C57** (`erc20.coins_send`). -/
theorem C57_erc20_send (W : World) (addr : BVal) (amt : CVal) (src : Source) (refund : Recipient) :
    SubmitsSigned W (W.erc20Send addr amt src refund) := erc20Send_signed W addr amt src refund

end TF.Props
