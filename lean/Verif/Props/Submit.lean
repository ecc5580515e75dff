import Verif.Props.Bots
import Verif.Props.ChainInfo
import Verif.Props.Confirmed
/-! # C83: registrations and 3Bot operations paid from own addresses are submitted -/
namespace TF.Props
open TF TF.Spec

theorem selfRequest_has {H : Bytes → Bytes} {k : PublicKey} {s : Bytes} {u : UnlockHash} (hu : k.unlockhash H = .ok u) :
    selfRequest H (some k) none s = .ok [⟨.self s, { owner := u }⟩] := by
  simp only [selfRequest, hu, bind, Except.bind, pure, Except.pure]

/-- The transaction asks each known key that has not signed for its signature. -/
theorem extra_has {H : Bytes → Bytes} {t : Tx} {rs : List TxRequest} (h : t.requests H = .ok rs) {s : Bytes} {k : PublicKey} {u : UnlockHash}
    (hp : (s, some k, none) ∈ selfSignatures t) (hu : k.unlockhash H = .ok u) : ∃ r ∈ rs, r.target = .self s ∧ r.req.owner = u := by
  have hx : ∃ ex, t.extraRequests H = .ok ex ∧ ∀ r ∈ ex, r ∈ rs := by
    unfold Tx.requests at h
    simp only at h
    split at h
    · cases h
    obtain ⟨a, _, h⟩ := bind_ok h
    obtain ⟨b, _, h⟩ := bind_ok h
    obtain ⟨ex, hex, h⟩ := bind_ok h
    cases h
    exact ⟨ex, hex, fun r hr => List.mem_append_right _ hr⟩
  obtain ⟨ex, hex, hsub⟩ := hx
  suffices ∃ r ∈ ex, r.target = .self s ∧ r.req.owner = u by
    obtain ⟨r, h1, h2⟩ := this
    exact ⟨r, hsub r h1, h2⟩
  cases t <;> simp only [selfSignatures, List.not_mem_nil, List.mem_cons, or_false, Prod.mk.injEq] at hp
  · obtain ⟨rfl, h1, h2⟩ := hp
    rw [show Tx.extraRequests H _ = selfRequest H _ _ specSender from rfl, ← h1, ← h2, selfRequest_has hu] at hex
    cases hex; exact ⟨_, List.mem_singleton_self _, rfl, rfl⟩
  · obtain ⟨rfl, h1, h2⟩ := hp
    rw [show Tx.extraRequests H _ = selfRequest H _ _ specSender from rfl, ← h1, ← h2, selfRequest_has hu] at hex
    cases hex; exact ⟨_, List.mem_singleton_self _, rfl, rfl⟩
  · obtain ⟨a, ha, hex⟩ := bind_ok hex
    obtain ⟨b, hb, hex⟩ := bind_ok hex
    cases hex
    rcases hp with ⟨rfl, h1, h2⟩ | ⟨rfl, h1, h2⟩
    · rw [← h1, ← h2, selfRequest_has hu] at ha
      cases ha; exact ⟨_, List.mem_append_left _ (List.mem_singleton_self _), rfl, rfl⟩
    · rw [← h1, ← h2, selfRequest_has hu] at hb
      cases hb; exact ⟨_, List.mem_append_right _ (List.mem_singleton_self _), rfl, rfl⟩
  · obtain ⟨rfl, h1, h2⟩ := hp
    rw [show Tx.extraRequests H _ = selfRequest H _ _ specRegistration from rfl, ← h1, ← h2, selfRequest_has hu] at hex
    cases hex; exact ⟨_, List.mem_singleton_self _, rfl, rfl⟩

theorem selfs_bare {t t' : Tx} (hb : bare t' = bare t) : (selfSignatures t').map (fun p => (p.1, p.2.1)) = (selfSignatures t).map fun p => (p.1, p.2.1) := by
  cases t <;> cases t' <;> simp only [bare, reduceCtorEq] at hb <;> try rfl
  · simp only [Tx.v144.injEq, TxV144.mk.injEq] at hb; simp [selfSignatures, hb]
  · simp only [Tx.v145.injEq, TxV145.mk.injEq] at hb; simp [selfSignatures, hb]
  · simp only [Tx.v146.injEq, TxV146.mk.injEq] at hb; simp [selfSignatures, hb]
  · simp only [Tx.v210.injEq, TxV210.mk.injEq] at hb; simp [selfSignatures, hb]

/-- With a signature at each place for one, and no mint condition, nothing extra is missing. -/
theorem extra_done {t : Tx} (hm : mintPart t = none) (h : ∀ p ∈ selfSignatures t, carried t (.self p.1) ≠ []) : t.extraFulfilled = .ok true := by
  cases t <;> simp only [mintPart, reduceCtorEq] at hm <;> try rfl
  all_goals rename_i v
  · have := h (specSender, v.key, v.sig) (by simp [selfSignatures])
    simp only [carried, selfSignatures, List.filterMap_cons, List.filterMap_nil, if_true] at this
    cases hs : v.sig with
    | none => rw [hs] at this; simp at this
    | some s => simp [Tx.extraFulfilled, hs]
  · have := h (specSender, v.parentKey, v.sig) (by simp [selfSignatures])
    simp only [carried, selfSignatures, List.filterMap_cons, List.filterMap_nil, if_true] at this
    cases hs : v.sig with
    | none => rw [hs] at this; simp at this
    | some s => simp [Tx.extraFulfilled, hs]
  · have hne : specSender ≠ specReceiver := by decide
    have h1 := h (specSender, v.senderKey, v.senderSig) (by simp [selfSignatures])
    have h2 := h (specReceiver, v.receiverKey, v.receiverSig) (by simp [selfSignatures])
    simp only [carried, selfSignatures, List.filterMap_cons, List.filterMap_nil, if_true, if_neg hne, if_neg hne.symm] at h1 h2
    cases hs : v.senderSig with
    | none => rw [hs] at h1; simp at h1
    | some s =>
      cases hr : v.receiverSig with
      | none => rw [hr] at h2; simp at h2
      | some s' => simp [Tx.extraFulfilled, hs, hr]
  · have := h (specRegistration, v.key, v.sig) (by simp [selfSignatures])
    simp only [carried, selfSignatures, List.filterMap_cons, List.filterMap_nil, if_true] at this
    cases hs : v.sig with
    | none => rw [hs] at this; simp at this
    | some s => simp [Tx.extraFulfilled, hs]

/-- A new transaction that spends outputs of the wallet only and asks for signatures of its keys only is submitted. -/
theorem signSubmit_own' {W : World} {w : Wallets} {t0 : Tx} {l : List CoinInput} (hu : Unsigned t0) (hd : DistinctParties W.H t0)
    (hc : t0.coinInputs = some l) (hm : mintPart t0 = none)
    (hx : ∀ p ∈ selfSignatures t0, ∃ k u, p.2.1 = some k ∧ k.unlockhash W.H = .ok u ∧ W.keys.get? (u.str W.H) ≠ none)
    (hown : ∀ ci ∈ l, ∃ co u, ci.parent = some co ∧ co.condition.unwrap = .unlockHash u ∧ W.keys.get? (u.str W.H) ≠ none ∧ ¬ HasAddress W.H .default (u.str W.H))
    {t : Tx} {b : Bool} (h : (W.signSubmit w t0).result = .ok (t, b)) : b = true := by
  rcases signSubmit_spec _ (rfl : W.signSubmit w t0 = _) with ⟨e, ho⟩ | ⟨t1, hs, hb, ⟨hf, ho⟩ | ⟨hf, ho⟩⟩
  · rw [ho] at h; cases h
  · rw [ho] at h
    simp only [bind, Except.bind] at h
    split at h <;> cases h
    rfl
  · exfalso
    unfold World.signNew at hs
    obtain ⟨rs, hrs, hs⟩ := bind_ok hs
    split at hs
    · cases hs
    obtain ⟨⟨t2, n⟩, hx', hs⟩ := bind_ok hs
    cases hs
    obtain ⟨g1, _, _, _, _, g6⟩ := signAll_added hd (fun r hr => ⟨(requests_ok hrs r hr).1, requests_ext hrs r hr⟩) rfl hu.legacy hx'
    have hbi := bare_inputs hb
    rw [hc] at hbi
    cases hc1 : t1.coinInputs with
    | none => rw [hc1] at hbi; cases hbi
    | some l1 =>
      rw [hc1] at hbi
      simp only [Option.map_some, Option.some.injEq] at hbi
      have hreq : ∃ cr, coinRequests W.H 0 l = .ok cr ∧ ∀ r ∈ cr, r ∈ rs := by
        have hrs' := hrs
        unfold Tx.requests at hrs'
        simp only [hc, bind, Except.bind] at hrs'
        split at hrs'
        · cases hrs'
        · rename_i cr hcr
          split at hrs'
          · cases hrs'
          · split at hrs'
            · cases hrs'
            · cases hrs'
              exact ⟨cr, hcr, fun r hr => List.mem_append_left _ (List.mem_append_left _ hr)⟩
      obtain ⟨cr, hcr, hsub⟩ := hreq
      have hall : ∀ ci ∈ l1, ci.isFulfilled = .ok true := by
        intro ci hci
        obtain ⟨i, hi⟩ := List.mem_iff_getElem?.1 hci
        have hi0 := congrArg (·[i]?) hbi
        simp only [List.getElem?_map, hi, Option.map_some] at hi0
        obtain ⟨c0, hc0, he⟩ := Option.map_eq_some_iff.1 hi0.symm
        obtain ⟨co, u, p1, p2, p3, p4⟩ := hown c0 (List.mem_of_getElem? hc0)
        have hpar : ci.parent = some co := by
          have := congrArg CoinInput.parent he
          simp only [bareInput] at this
          rw [← this]; exact p1
        obtain ⟨qs, hqs⟩ := coinRequests_each hcr c0 (List.mem_of_getElem? hc0)
        have hsingle : c0.fulfillment = .single .default none := by
          rcases hu.coins l hc c0 (List.mem_of_getElem? hc0) with e | e | ⟨sec, e⟩
          · exact e
          · simp [CoinInput.requests, p1, e, Fulfillment.requests, p2] at hqs
          · exfalso
            simp only [CoinInput.requests, p1, e, Fulfillment.requests] at hqs
            cases hcc : co.condition <;> simp [hcc] at hqs
            simp [hcc, Condition.unwrap] at p2
        obtain ⟨r, r1, r2, r3⟩ := coinRequests_has hcr hc0 p1 p2 hsingle p4
        have hne := g6 r (hsub r r1) (by rw [r3]; exact p3)
        rw [r2, Nat.zero_add] at hne
        simp only [carried, hc1, Option.getD_some, hi] at hne
        have hkind : ci.fulfillment.hashExtras .default = [] := by
          have := congrArg (fun l => (l.getD [])[i]?) (g1.coins .default)
          simp only [hc1, hc, Option.map_some, Option.getD_some, List.getElem?_map, hi, hc0, Option.some.injEq, inKey, Prod.mk.injEq] at this
          rw [this.2, hsingle]; rfl
        unfold CoinInput.isFulfilled
        rw [hpar]
        cases hff : ci.fulfillment with
        | single k s =>
          rw [hff] at hne
          cases s with
          | none => simp [sigsIn] at hne
          | some s => simp [Fulfillment.isFulfilled, p2]
        | multi ps => rw [hff] at hkind; simp [Fulfillment.hashExtras] at hkind
        | swap k s sec => rw [hff] at hkind; cases sec <;> simp [Fulfillment.hashExtras] at hkind
      have hxf : t1.extraFulfilled = .ok true := by
        refine extra_done ?_ fun p hp => ?_
        · cases t0 <;> cases t1 <;> simp only [bare, reduceCtorEq] at hb <;> simp only [mintPart, reduceCtorEq] at hm ⊢
        · have he := selfs_bare hb
          have : (p.1, p.2.1) ∈ (selfSignatures t0).map fun p => (p.1, p.2.1) := he ▸ List.mem_map.2 ⟨p, hp, rfl⟩
          obtain ⟨q, hq, hqe⟩ := List.mem_map.1 this
          obtain ⟨k, u, k1, k2, k3⟩ := hx q hq
          have hq0 := hu.selfs q hq
          obtain ⟨q1, q2, q3⟩ := q
          simp only at k1 hq0
          subst k1; subst hq0
          obtain ⟨r, r1, r2, r3⟩ := extra_has hrs hq k2
          have hne := g6 r r1 (by rw [r3]; exact k3)
          rw [r2] at hne
          simp only [Prod.mk.injEq] at hqe
          rw [← hqe.1]; exact hne
      unfold Tx.isFulfilled at hf
      simp only [hc1, hxf, bind, Except.bind] at hf
      rw [(reduceFulfilled_true l1 true).2 ⟨rfl, hall⟩] at hf
      cases hf

theorem unlockhash_type {H : Bytes → Bytes} {k : PublicKey} {u : UnlockHash} (h : k.unlockhash H = .ok u) : u.type = 1 := by
  unfold PublicKey.unlockhash at h
  obtain ⟨a, _, h⟩ := bind_ok h
  obtain ⟨b, _, h⟩ := bind_ok h
  cases h; rfl

/-- The wallet has the key that is filed under the address of `k`. -/
theorem get_own {H : Bytes → Bytes} {s : Keys} {k : PublicKey} {a : Str} (h : HasAddress H k a) (hl : s.lookup a ≠ none) :
    ∃ u, k.unlockhash H = .ok u ∧ s.get? (u.str H) ≠ none := by
  obtain ⟨u, hu, ha⟩ := h
  refine ⟨u, hu, ?_⟩
  have e : s.get? (u.str H) = s.lookup (u.str H) := if_neg (personal_text (unlockhash_type hu))
  rw [e, ha]; exact hl

theorem lookup_more {s s' : Keys} {l : List (Str × PublicKey)} (h : s'.pairs = s.pairs ++ l) (hp : s'.primary = s.primary) {a : Str} (ha : s.get? a ≠ none) :
    s'.get? a ≠ none := by
  have key : ∀ b, s.lookup b ≠ none → s'.lookup b ≠ none := by
    intro b hb hn
    unfold Keys.lookup at hb hn
    simp only [Option.map_eq_none_iff, ne_eq] at hb hn
    rw [h, List.find?_append] at hn
    cases hf : s.pairs.find? fun p => p.1 = b with
    | none => exact hb hf
    | some x => rw [hf] at hn; cases hn
  unfold Keys.get? at ha ⊢
  rw [hp]
  split
  · rename_i h0; rw [if_pos h0] at ha; exact key _ ha
  · rename_i h0; rw [if_neg h0] at ha; exact key _ ha

/-- The key used is one of the wallet afterwards, and no key is lost. -/
theorem keyForIndex_own {W : World} (hf : ∀ a k, W.keys.lookup a = some k → HasAddress W.H k a) {i : Option Int} {x : Keys × PublicKey}
    (h : W.keyForIndex i = .ok x) : (∃ u, x.2.unlockhash W.H = .ok u ∧ x.1.get? (u.str W.H) ≠ none) ∧ ∀ a, W.keys.get? a ≠ none → x.1.get? a ≠ none := by
  cases i with
  | none =>
    have key : ∃ a, HasAddress W.H x.2 a ∧ x.1.pairs = W.keys.pairs ++ [(a, x.2)] ∧ x.1.primary = W.keys.primary := by
      replace h : W.keys.new1 W.H W.derive = .ok x := h
      unfold Keys.new1 at h
      split at h
      · obtain ⟨s', hs', h⟩ := bind_ok h
        cases h
        obtain ⟨a, ha, -, rfl⟩ := addPair_ok hs'
        exact ⟨a, ha, rfl, rfl⟩
      · obtain ⟨k, hk, h⟩ := bind_ok h
        obtain ⟨s', hs', h⟩ := bind_ok h
        cases h
        obtain ⟨a, ha, -, rfl⟩ := addPair_ok hs'
        exact ⟨a, ha, rfl, rfl⟩
    obtain ⟨a, ha, hp, hpr⟩ := key
    refine ⟨get_own ha ?_, fun b hb => lookup_more hp hpr hb⟩
    unfold Keys.lookup
    rw [hp]
    intro hn
    simp only [Option.map_eq_none_iff, List.find?_eq_none, List.mem_append, List.mem_singleton, decide_eq_true_eq] at hn
    exact hn (a, x.2) (.inr rfl) rfl
  | some i =>
    simp only [World.keyForIndex, bind, Except.bind] at h
    split at h
    · cases h
    · split at h
      · cases h
      · split at h
        · cases h
        · split at h
          · cases h
          · rename_i k hk
            cases h
            refine ⟨?_, fun b hb => hb⟩
            unfold Keys.get? at hk
            split at hk
            · exact get_own (hf _ _ hk) (by rw [hk]; simp)
            · exact get_own (hf _ _ hk) (by rw [hk]; simp)

/-- The same for ERC20 registrations. -/
theorem keyFor_own {W : World} (hf : ∀ a k, W.keys.lookup a = some k → HasAddress W.H k a) {which : WhichKey} {x : Keys × PublicKey}
    (h : W.keyFor which = .ok x) : (∃ u, x.2.unlockhash W.H = .ok u ∧ x.1.get? (u.str W.H) ≠ none) ∧ ∀ a, W.keys.get? a ≠ none → x.1.get? a ≠ none := by
  have key : ∀ {a k}, W.keys.get? a = some k → ∃ u, k.unlockhash W.H = .ok u ∧ W.keys.get? (u.str W.H) ≠ none := by
    intro a k hk
    unfold Keys.get? at hk
    split at hk
    · exact get_own (hf _ _ hk) (by rw [hk]; simp)
    · exact get_own (hf _ _ hk) (by rw [hk]; simp)
  cases which with
  | new => exact keyForIndex_own hf (i := none) h
  | index i => exact keyForIndex_own hf (i := some i) h
  | other => cases h
  | str s =>
    simp only [World.keyFor, bind, Except.bind] at h
    split at h
    · rename_i k hk; cases h; exact ⟨key hk, fun _ h => h⟩
    · split at h <;> cases h
  | uh u =>
    simp only [World.keyFor] at h
    split at h
    · rename_i k hk; cases h; exact ⟨key hk, fun _ h => h⟩
    · cases h

theorem own_more {W : World} {k : Keys} {l : List CoinInput} (hk : ∀ a, W.keys.get? a ≠ none → k.get? a ≠ none)
    (h : ∀ ci ∈ l, ∃ co u, ci.parent = some co ∧ co.condition.unwrap = .unlockHash u ∧ W.keys.get? (u.str W.H) ≠ none ∧ ¬ HasAddress W.H .default (u.str W.H)) :
    ∀ ci ∈ l, ∃ co u, ci.parent = some co ∧ co.condition.unwrap = .unlockHash u ∧ k.get? (u.str W.H) ≠ none ∧ ¬ HasAddress W.H .default (u.str W.H) := by
  intro ci hci
  obtain ⟨co, u, h1, h2, h3, h4⟩ := h ci hci
  exact ⟨co, u, h1, h2, hk _ h3, h4⟩

/-- **C83** (`threebot.record_new`). If all that may be spent belongs to personal addresses of the wallet, a registration never returns without having been
submitted: the key of the new 3Bot is one of the wallet's. -/
theorem C83_record_new (W : World) (w : Wallets) (L : IpLib) (months : Int) (names : Option (List NameArg)) (addresses : Option (List NetArg))
    (keyIndex : Option Int) (src : Source) (refund : Recipient) (t : Tx) (b : Bool) (hw : W.balance = .ok w) (ha : AllOwn W w src)
    (hf : ∀ a k, W.keys.lookup a = some k → HasAddress W.H k a) (h : (W.recordNew L months names addresses keyIndex src refund).result = .ok (t, b)) :
    b = true ∧ ∃ t', (W.recordNew L months names addresses keyIndex src refund).posted = [t'] := by
  have hb : b = true := by
    obtain ⟨r, hr, h⟩ := ofRes_result h
    obtain ⟨fees, _, h⟩ := ofRes_result h
    obtain ⟨w', hw', h⟩ := ofRes_result h
    rw [hw] at hw'; cases hw'
    obtain ⟨x, hx, h⟩ := ofRes_result h
    obtain ⟨k, hk, h⟩ := ofRes_result h
    obtain ⟨k1, k2⟩ := keyForIndex_own hf hk
    refine signSubmit_own' (W := { W with keys := k.1 }) (l := x.1) ⟨by simp [IsLegacy], ?_, ?_, by simp [mintPart]⟩ (fun m e => by cases e) rfl rfl ?_
      (own_more (W := W) k2 (fundExtra_own ha hx)) h
    · intro l hl; cases hl; exact fundExtra_fresh hx
    · intro p hp
      simp only [selfSignatures, List.mem_singleton] at hp
      subst hp
      exact registration_sig hr
    · intro p hp
      simp only [selfSignatures, List.mem_singleton] at hp
      subst hp
      obtain ⟨u, u1, u2⟩ := k1
      exact ⟨k.2, u, rfl, u1, u2⟩
  subst hb
  obtain ⟨t', h1, _⟩ := (C57_record_new W L months names addresses keyIndex src refund).yes t h
  exact ⟨rfl, t', h1⟩

/-- **C83** (`erc20.address_register`). -/
theorem C83_address_register (W : World) (w : Wallets) (which : WhichKey) (src : Source) (refund : Recipient) (t : Tx) (b : Bool) (hw : W.balance = .ok w)
    (ha : AllOwn W w src) (hf : ∀ a k, W.keys.lookup a = some k → HasAddress W.H k a) (h : (W.addressRegister which src refund).result = .ok (t, b)) :
    b = true ∧ ∃ t', (W.addressRegister which src refund).posted = [t'] := by
  have hb : b = true := by
    obtain ⟨k, hk, h⟩ := ofRes_result h
    obtain ⟨w', hw', h⟩ := ofRes_result h
    rw [hw] at hw'; cases hw'
    obtain ⟨x, hx, h⟩ := ofRes_result h
    obtain ⟨k1, k2⟩ := keyFor_own hf hk
    refine signSubmit_own' (W := { W with keys := k.1 }) (l := x.1) ⟨by simp [IsLegacy], ?_, ?_, by simp [mintPart]⟩ (fun m e => by cases e) rfl rfl ?_
      (own_more (W := W) k2 (fundExtra_own ha hx)) h
    · intro l hl; cases hl; exact fundExtra_fresh hx
    · intro p hp
      simp only [selfSignatures, List.mem_singleton] at hp
      subst hp; rfl
    · intro p hp
      simp only [selfSignatures, List.mem_singleton] at hp
      subst hp
      obtain ⟨u, u1, u2⟩ := k1
      exact ⟨k.2, u, rfl, u1, u2⟩
  subst hb
  obtain ⟨t', h1, _⟩ := (C57_address_register W which src refund).yes t h
  exact ⟨rfl, t', h1⟩

/-- **C83** (`threebot.record_update`): if the key of the 3Bot is one of the wallet's, too. -/
theorem C83_record_update (W : World) (w : Wallets) (L : IpLib) (id months : Int) (namesAdd namesRemove : Option (List NameArg))
    (addrsAdd addrsRemove : Option (List NetArg)) (src : Source) (refund : Recipient) (t : Tx) (b : Bool) (hw : W.balance = .ok w) (ha : AllOwn W w src)
    (hk : ∀ k exp, W.record id = .ok (k, exp) → ∃ u, k.unlockhash W.H = .ok u ∧ W.keys.get? (u.str W.H) ≠ none)
    (h : (W.recordUpdate L id months namesAdd namesRemove addrsAdd addrsRemove src refund).result = .ok (t, b)) :
    b = true ∧ ∃ t', (W.recordUpdate L id months namesAdd namesRemove addrsAdd addrsRemove src refund).posted = [t'] := by
  have hb : b = true := by
    obtain ⟨r, hr, h⟩ := ofRes_result h
    obtain ⟨k, hk', h⟩ := ofRes_result h
    obtain ⟨fees, _, h⟩ := ofRes_result h
    obtain ⟨w', hw', h⟩ := ofRes_result h
    rw [hw] at hw'; cases hw'
    obtain ⟨x, hx, h⟩ := ofRes_result h
    refine signSubmit_own' (l := x.1) ⟨by simp [IsLegacy], ?_, ?_, by simp [mintPart]⟩ (fun m e => by cases e) rfl rfl ?_ (fundExtra_own ha hx) h
    · intro l hl; cases hl; exact fundExtra_fresh hx
    · intro p hp
      simp only [selfSignatures, List.mem_singleton] at hp
      subst hp
      exact recordChange_sig hr
    · intro p hp
      simp only [selfSignatures, List.mem_singleton] at hp
      subst hp
      unfold World.activeOrPaid at hk'
      obtain ⟨⟨k', exp⟩, h1, h2⟩ := bind_ok hk'
      obtain ⟨now, _, h2⟩ := bind_ok h2
      simp only at h2
      split at h2
      · cases h2
      · cases h2
        obtain ⟨u, u1, u2⟩ := hk _ _ h1
        exact ⟨k, u, rfl, u1, u2⟩
  subst hb
  obtain ⟨t', h1, _⟩ := (C57_record_update W L id months namesAdd namesRemove addrsAdd addrsRemove src refund).yes t h
  exact ⟨rfl, t', h1⟩

theorem transfer_keys {W : World} {sender receiver : Int} {names : Option (List NameArg)} {t : TxV146} (h : W.transfer sender receiver names = .ok t) :
    ∃ ka ea kb eb, W.record sender = .ok (ka, ea) ∧ W.record receiver = .ok (kb, eb) ∧ t.senderKey = some ka ∧ t.receiverKey = some kb := by
  have act : ∀ {now id k}, W.activeKey now id = .ok k → ∃ exp, W.record id = .ok (k, exp) := by
    intro now id k h
    unfold World.activeKey at h
    obtain ⟨⟨k', exp⟩, h1, h2⟩ := bind_ok h
    simp only at h2
    split at h2
    · cases h2
    · cases h2; exact ⟨exp, h1⟩
  unfold World.transfer at h
  obtain ⟨a, _, h⟩ := bind_ok h
  obtain ⟨b, _, h⟩ := bind_ok h
  obtain ⟨ns, _, h⟩ := bind_ok h
  simp only at h
  split at h
  · cases h
  · obtain ⟨now, _, h⟩ := bind_ok h
    obtain ⟨ka, h1, h⟩ := bind_ok h
    obtain ⟨kb, h2, h⟩ := bind_ok h
    cases h
    obtain ⟨ea, h1⟩ := act h1
    obtain ⟨eb, h2⟩ := act h2
    exact ⟨ka, ea, kb, eb, h1, h2, rfl, rfl⟩

/-- **C83** (`threebot.name_transfer`): if the keys of both 3Bots are keys of the wallet, with different addresses. -/
theorem C83_name_transfer (W : World) (hH : Digest32 W.H) (w : Wallets) (sender receiver : Int) (names : Option (List NameArg)) (src : Source) (refund : Recipient)
    (t : Tx) (b : Bool) (hw : W.balance = .ok w) (ha : AllOwn W w src)
    (hk : ∀ id k exp, id = sender ∨ id = receiver → W.record id = .ok (k, exp) → ∃ u, k.unlockhash W.H = .ok u ∧ W.keys.get? (u.str W.H) ≠ none)
    (hne : ∀ ka ea kb eb u, W.record sender = .ok (ka, ea) → W.record receiver = .ok (kb, eb) → ka.unlockhash W.H = .ok u → kb.unlockhash W.H ≠ .ok u)
    (h : (W.nameTransfer sender receiver names src refund).result = .ok (t, b)) :
    b = true ∧ ∃ t', (W.nameTransfer sender receiver names src refund).posted = [t'] := by
  have hb : b = true := by
    obtain ⟨r, hr, h⟩ := ofRes_result h
    obtain ⟨fees, _, h⟩ := ofRes_result h
    obtain ⟨w', hw', h⟩ := ofRes_result h
    rw [hw] at hw'; cases hw'
    obtain ⟨x, hx, h⟩ := ofRes_result h
    obtain ⟨s1, s2⟩ := transfer_spec hr
    obtain ⟨ka, ea, kb, eb, k1, k2, k3, k4⟩ := transfer_keys hr
    refine signSubmit_own' (l := x.1) ⟨by simp [IsLegacy], ?_, ?_, by simp [mintPart]⟩ ?_ rfl rfl ?_ (fundExtra_own ha hx) h
    · intro l hl; cases hl; exact fundExtra_fresh hx
    · intro p hp
      simp only [selfSignatures, List.mem_cons, List.not_mem_nil, or_false] at hp
      rcases hp with rfl | rfl
      · exact s1
      · exact s2
    · intro m e u v hu hv he
      cases e
      simp only [k3, k4] at hu hv
      have full : ∀ {k : PublicKey} {u : UnlockHash}, k.unlockhash W.H = .ok u → FullAddress u := by
        intro k u hk
        unfold PublicKey.unlockhash at hk
        obtain ⟨a, _, hk⟩ := bind_ok hk
        obtain ⟨b, _, hk⟩ := bind_ok hk
        cases hk; exact hH _
      have := str_inj (full hu) (full hv) he
      subst this
      exact hne ka ea kb eb u k1 k2 hu hv
    · intro p hp
      simp only [selfSignatures, List.mem_cons, List.not_mem_nil, or_false] at hp
      rcases hp with rfl | rfl
      · obtain ⟨u, u1, u2⟩ := hk _ _ _ (.inl rfl) k1
        exact ⟨ka, u, k3, u1, u2⟩
      · obtain ⟨u, u1, u2⟩ := hk _ _ _ (.inr rfl) k2
        exact ⟨kb, u, k4, u1, u2⟩
  subst hb
  obtain ⟨t', h1, _⟩ := (C57_name_transfer W hH sender receiver names src refund).yes t h
  exact ⟨rfl, t', h1⟩

/-! ## Witnesses -/

theorem demoBots_allOwn : AllOwn demoBots (walletsRun toyHash [.chain 1000 1000, .report coin500 true false]) .none := by
  intro co hco
  have hk : demoBots.keys.get? ((addrOf key1).str demoBots.H) ≠ none := by decide +kernel
  have hd : ¬ HasAddress demoBots.H .default ((addrOf key1).str demoBots.H) := by
    rintro ⟨u, h1, h2⟩
    have : (PublicKey.default.unlockhash toyHash).map (·.str toyHash) ≠ .ok ((addrOf key1).str toyHash) := by decide +kernel
    apply this
    show (PublicKey.default.unlockhash demoBots.H).map _ = _
    rw [h1]; exact congrArg Except.ok h2
  cases hco with
  | personal u offered address asked =>
    rw [show spendable _ = [coin500] by decide +kernel] at offered
    simp only [List.mem_cons, List.not_mem_nil, or_false] at offered
    rcases offered with rfl; exact ⟨addrOf key1, by decide +kernel, hk, hd⟩
  | multi name m u wallet offered names given asked => exact absurd rfl given

theorem demoBots_filed : ∀ a k, demoBots.keys.lookup a = some k → HasAddress demoBots.H k a := by
  intro a k h
  simp only [Keys.lookup, demoBots, demoWorld, List.find?_cons] at h
  split at h
  · rename_i h2
    cases h
    have := of_decide_eq_true h2
    subst this
    exact ⟨addrOf key1, by decide +kernel, rfl⟩
  · cases h

example : ∃ t', (demoBots.recordNew toyIp 3 (some [.str "example".toList]) none none .none .none).posted = [t'] := by
  have h : answered (demoBots.recordNew toyIp 3 (some [.str "example".toList]) none none .none .none) = ([(144, 379900000000)], .ok true) := by decide +kernel
  obtain ⟨x, hx⟩ : ∃ x, (demoBots.recordNew toyIp 3 (some [.str "example".toList]) none none .none .none).result = .ok x := by
    unfold answered at h
    cases hr : (demoBots.recordNew toyIp 3 (some [.str "example".toList]) none none .none .none).result with
    | error e => rw [hr] at h; have h := congrArg Prod.snd h; exact absurd h (by simp [Except.map])
    | ok x => exact ⟨x, rfl⟩
  exact (C83_record_new demoBots _ toyIp 3 _ none none .none .none x.1 x.2 rfl demoBots_allOwn demoBots_filed hx).2
/-- The 3Bot 1 belongs to the wallet (its updates are submitted), 3Bot 2 does not (updates are returned for somebody else to sign). -/
example : (∀ k exp, demoBots.record 1 = .ok (k, exp) → ∃ u, k.unlockhash demoBots.H = .ok u ∧ demoBots.keys.get? (u.str demoBots.H) ≠ none) ∧
    answered (demoBots.recordUpdate toyIp 1 1 none none none none .none .none) = ([(145, 489900000000)], .ok true) ∧
    answered (demoBots.recordUpdate toyIp 2 1 none none none none .none .none) = ([], .ok false) := by
  refine ⟨fun k exp h => ?_, by decide +kernel, by decide +kernel⟩
  have h' : demoBots.record 1 = .ok (key1, 2000) := rfl
  rw [h'] at h
  obtain ⟨e, _⟩ := Prod.mk.inj (Except.ok.inj h)
  rw [← e]
  exact ⟨addrOf key1, by decide +kernel, by decide +kernel⟩

end TF.Props
