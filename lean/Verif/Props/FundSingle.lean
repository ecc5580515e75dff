import Verif.Props.Fund
/-! # C54 — funding from one multi-signature wallet, of any size -/
namespace TF.Props
open TF Spec

/-- None of these wallets is asked for: nothing is collected. -/
theorem fundMulti_none {H : Bytes → Bytes} {a : Currency} {addrs : List UnlockHash} (ws : MultiMap) (hn : ∀ p ∈ ws, walletIn H addrs p = false)
    {outs : List CoinOutput} {c : Currency} {r : List CoinOutput × Currency} (h : fundMulti H a addrs ws outs c = .ok r) : r = (outs, c) := by
  induction ws with
  | nil => cases h; rfl
  | cons p ws ih =>
    have hp := hn p List.mem_cons_self
    unfold fundMulti at h
    simp only [bind, Except.bind] at h
    unfold walletIn at hp
    split at h
    · cases h
    · rename_i u hu
      rw [hu] at hp
      simp only at hp
      rw [if_neg (by rw [hp]; simp)] at h
      exact ih (fun q hq => hn q (List.mem_cons_of_mem _ hq)) h

/-- One wallet at most is asked for: if it does not give enough, no 99 of its outputs do. -/
theorem fundMulti_single {H : Bytes → Bytes} {a : Currency} {addrs : List UnlockHash} (ha : GoodCurrency a) (hpos : 0 < amount a) (ws : MultiMap)
    (h1 : ws.Pairwise fun p q => ¬ (walletIn H addrs p = true ∧ walletIn H addrs q = true)) {c : Currency} (hc : GoodCurrency c) (hz : amount c = 0)
    (hs : SaneOutputs (multiElig H addrs ws)) {r : List CoinOutput × Currency} (h : fundMulti H a addrs ws [] c = .ok r) (hlt : total r.1 < amount a)
    (s : List CoinOutput) (hsub : s.Subperm (multiElig H addrs ws)) (hl : s.length ≤ maxInputs) : total s < amount a := by
  induction ws generalizing s with
  | nil =>
    have : s = [] := by simpa [multiElig, List.subperm_nil] using hsub
    subst this
    exact hpos
  | cons p ws ih =>
    rw [List.pairwise_cons] at h1
    obtain ⟨hp, hw⟩ := h1
    rw [multiElig_cons] at hs hsub
    unfold fundMulti at h
    simp only [bind, Except.bind] at h
    split at h
    · cases h
    · rename_i u hu
      have hin : walletIn H addrs p = addrs.contains u := by unfold walletIn; rw [hu]
      by_cases hcu : addrs.contains u = true
      · rw [hin, if_pos hcu] at hs hsub
        rw [if_pos hcu] at h
        have hnone : ∀ q ∈ ws, walletIn H addrs q = false := by
          intro q hq
          have := hp q hq
          cases hqq : walletIn H addrs q with
          | false => rfl
          | true => exact absurd ⟨by rw [hin, hcu], hqq⟩ this
        have hrest : multiElig H addrs ws = [] := by
          unfold multiElig
          rw [List.filter_eq_nil_iff.2 fun q hq => by rw [hnone q hq]; simp]
          rfl
        rw [hrest, List.append_nil] at hs hsub
        obtain ⟨d, o, c', g1, g2, g3, g4, g5⟩ := fundFrom_spec ha p.2.base.available p.2.base.unconfAvailable [] c hc (by rw [hz]; rfl) (by simp)
          (by rw [List.nil_append]; exact hs)
        rw [g1] at h
        simp only at h
        have hro : r.1 = o := by
          cases d with
          | true => cases h; rfl
          | false =>
            have := fundMulti_none ws hnone h
            rw [this]
        have hd : d = false := by
          cases d with
          | false => rfl
          | true => have := g4 rfl; rw [hro] at hlt; omega
        obtain ⟨_, g6⟩ := g5 hd
        exact fundFrom_complete _ _ hs.1 (by simpa using g6) hsub hl
      · rw [hin, if_neg hcu, List.nil_append] at hs hsub
        rw [if_neg hcu] at h
        exact ih hw hs h s hsub hl

/-- The personal addresses of a given source are no multi-signature addresses. -/
theorem sources_personal {H : Bytes → Bytes} {w : Wallets} {src : Source} {addrs ms : List UnlockHash} {rf : Option Condition}
    (h : w.sources H src = .ok (addrs, ms, rf)) (hg : src ≠ .none) : ∀ u ∈ addrs, u.type ≠ 3 := by
  cases src with
  | none => exact absurd rfl hg
  | one s =>
    simp only [Wallets.sources, bind, Except.bind] at h
    split at h
    · cases h
    · split at h
      · cases h
      · rename_i q hq
        split at h
        · cases h
        · cases h
          exact fun u hu => by rw [(((splitSource_mem hq).1 u).1 hu).2]; decide
  | list l =>
    simp only [Wallets.sources, bind, Except.bind] at h
    split at h
    · cases h
    · split at h
      · cases h
      · rename_i q hq
        split at h
        · split at h
          · cases h
          · cases h
            exact fun u hu => by rw [(((splitSource_mem hq).1 u).1 hu).2]; decide
        · cases h
        · cases h
          exact fun u hu => by rw [(((splitSource_mem hq).1 u).1 hu).2]; decide

/-- **C54** (what holds, one multi-signature wallet). If `fund` raises `InsufficientFunds`, no personal address is requested and at most one of
the multi-signature wallets is, then no at most 99 different outputs of that wallet reach the (positive) amount — however many it has. -/
theorem C54_complete_single_partial (H : Bytes → Bytes) (w : Wallets) (a : Currency) (src : Source) (hw : WellFiled H w)
    (hs : SaneOutputs (walletsSpendable w)) (ha : GoodCurrency a) (hpos : 0 < amount a)
    (hsrc : OneMultiSource H w src)
    (h : w.fund H a src = .error .insufficientFunds) (s : List CoinOutput) (hn : s.Nodup) (hl : s.length ≤ 99)
    (he : ∀ co ∈ s, Eligible H w src co) : total s < amount a := by
  obtain ⟨hgiven, hmulti, hone⟩ := hsrc
  unfold Wallets.fund at h
  simp only [bind, Except.bind] at h
  split at h
  · rename_i e hx
    have := sources_noIns H w src
    rw [hx] at this
    cases h
    exact absurd rfl this
  · rename_i r hr
    obtain ⟨addrs, ms, rf⟩ := r
    obtain ⟨a1, a2, a3, a4⟩ := sources_asked hr
    have haddrs : addrs = [] := by
      rw [List.eq_nil_iff_forall_not_mem]
      intro u hu
      exact sources_personal hr hgiven u hu (hmulti u (a1 u hu))
    subst haddrs
    have hsane := SaneOutputs.sublist hs (elig_sublist H w [] ms)
    have helig : elig H w [] ms = multiElig H ms w.wallets := by
      unfold elig personalElig
      rw [List.filter_eq_nil_iff.2 fun co _ => by unfold addrIn; split <;> simp]
      rfl
    rw [helig] at hsane
    have hsub : s.Subperm (multiElig H ms w.wallets) := by
      rw [← helig]
      exact hn.subperm fun co hco => eligible_elig hw hr (he co hco)
    simp only [throw, throwThe, MonadExceptOf.throw] at h
    have hpers : w.fundPersonal H a [] = .ok (false, [], ⟨none⟩) := rfl
    rw [hpers] at h
    have hasked : ∀ p, walletIn H ms p = true → ∃ u, Asked H src u ∧ Names H p.1 u := by
      intro p hp
      unfold walletIn at hp
      split at hp
      · rename_i u hu
        exact ⟨u, ((a2 u).1 (List.contains_iff_mem.1 hp)).2.1, hu⟩
      · cases hp
    have hone' : w.wallets.Pairwise fun p q => ¬ (walletIn H ms p = true ∧ walletIn H ms q = true) :=
      hone.imp fun h ⟨x, y⟩ => h ⟨hasked _ x, hasked _ y⟩
    split at h
    · rename_i hnil
      have : ms = [] := List.length_eq_zero_iff.1 hnil.2
      subst this
      have : multiElig H [] w.wallets = [] := by
        unfold multiElig
        rw [List.filter_eq_nil_iff.2 fun p _ => by unfold walletIn; split <;> simp]
        rfl
      rw [this, List.subperm_nil] at hsub
      rw [hsub]; exact hpos
    · simp only at h
      split at h
      · exact absurd h (fundResult_noIns _ _ _ _)
      · rename_i hzero
        split at h
        · rename_i hms
          rename_i hnil
          exact absurd ⟨rfl, hms⟩ hnil
        · obtain ⟨k1, k2⟩ := fundMulti_spec (outs := []) ha w.wallets good_none (by rfl) (by simp) (by rw [List.nil_append]; exact hsane)
          split at h
          · rename_i e hx
            cases h
            exact absurd hx k1
          · rename_i q hq
            obtain ⟨outs2, c2⟩ := q
            obtain ⟨k3, k4, _⟩ := k2 _ hq
            simp only at h k3 k4
            split at h
            · rename_i hlt
              have hlt : total outs2 < amount a := by rw [← k4]; exact (lt_amount k3 ha).1 hlt
              exact fundMulti_single ha hpos w.wallets hone' good_none rfl hsane hq hlt s hsub hl
            · exact absurd h (fundResult_noIns _ _ _ _)

/-- In every wallet that came about by reports, a single multi-signature address is such a source. -/
theorem oneMulti_run (H : Bytes → Bytes) (hH : Digest32 H) (es : List BalEvent) (s : SourceArg) (u : UnlockHash) (hu : ArgNames H s u) (ht : u.type = 3) :
    OneMultiSource H (walletsRun H es) (.one s) := by
  have uniq : ∀ v, ArgNames H s v → v = u := by
    intro v hv
    cases s with
    | str x => exact Except.ok.inj ((show UnlockHash.fromJson H (.str x) = .ok v from hv).symm.trans hu)
    | uh x => exact hv.trans hu.symm
    | other => exact hv.elim
  refine ⟨by simp, fun v hv => by rw [uniq v hv]; exact ht, ?_⟩
  have hw : WInv H (fun _ => True) (walletsRun H es) := (wInv_new H _).run es fun _ _ _ _ => trivial
  have hname := walletNames_run H hH es
  have hk := hw.keys
  rw [List.Nodup, List.pairwise_map] at hk
  refine hk.imp_of_mem fun {p q} hp hq hne => ?_
  rintro ⟨⟨v, hv, hpv⟩, ⟨v', hv', hqv⟩⟩
  rw [uniq v hv] at hpv
  rw [uniq v' hv'] at hqv
  obtain ⟨x, hx, hxn, -⟩ := hname p hp
  obtain ⟨y, hy, hyn, -⟩ := hname q hq
  unfold Names at *
  rw [hpv] at hxn; cases hxn
  rw [hqv] at hyn; cases hyn
  exact hne (hx.trans hy.symm)

/- A wallet of 120 multi-signature outputs of 2 TFT: 198 TFT are found, 199 are not, and indeed no 99 outputs reach them. -/
example : ∃ w : Wallets, w = walletsRun toyHash ((List.range 120).map fun i => .report (coinN i) true false) ∧
    OneMultiSource toyHash w (.one (.uh nAddr)) ∧ (walletsSpendable w).length = 120 ∧
    ((w.fund toyHash ⟨some ⟨false, 198, 0⟩⟩ (.one (.uh nAddr))).toOption.map fun r => r.1.length) = some 99 ∧
    w.fund toyHash ⟨some ⟨false, 199, 0⟩⟩ (.one (.uh nAddr)) = .error .insufficientFunds :=
  ⟨_, rfl, oneMulti_run toyHash toyHash_digest _ _ nAddr rfl (by decide +kernel), by decide +kernel, by decide +kernel, by decide +kernel⟩

end TF.Props
