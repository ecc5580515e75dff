import Verif.Spec.Circulation
import Verif.Props.ChainSwap
import Mathlib.Data.List.Dedup
/-! # C121: coins are neither made nor lost -/
namespace TF.Props
open TF TF.Spec

theorem total_pays {l l' : List CoinOutput} (h : l.map pays = l'.map pays) : total l = total l' := by
  have e : ∀ l : List CoinOutput, total l = ((l.map pays).map Prod.fst).sum := by
    intro l
    simp [total, pays, List.map_map, Function.comp_def]
  rw [e, e, h]

theorem mem_of_ids {S : ChainState} (hl : LawfulChain S) {co co' : CoinOutput} (h : CreatedOn S co) (h' : CreatedOn S co') (hi : Identified co)
    (e : co.id = co'.id) : co = co' := by
  obtain ⟨t, h1, h2⟩ := h
  obtain ⟨t', h1', h2'⟩ := h'
  exact (hl.ids t h1 t' h1' co h2 co' h2' hi e).2

/-- A transaction that spends different unspent outputs keeps the chain lawful, and changes what circulates by what it costs. -/
theorem accepts_keeps {S S' : ChainState} (hl : LawfulChain S) {t : Tx} (ha : Accepts S t S') {l : List CoinInput} {spent : List CoinOutput} {cost : Nat}
    (hi : t.coinInputs = some l) (hids : l.map CoinInput.parentId = spent.map CoinOutput.id) (hnd : (l.map CoinInput.parentId).Nodup)
    (hun : ∀ co ∈ spent, UnspentOn S co ∧ Identified co) (ht : total spent = total t.coinOutputs + cost) :
    LawfulChain S' ∧ (OnceSpent S → OnceSpent S') ∧ ∀ n, Circulating S n → ∃ n', Circulating S' n' ∧ n' + cost = n := by
  obtain ⟨e, e1, e2, e3, e4, e5, e6⟩ := ha.entry
  have hsn : spent.Nodup := by rw [hids] at hnd; exact hnd.of_map _
  have houts : total e.tx.coinOutputs = total t.coinOutputs := total_pays e2
  have hmem : ∀ x, x ∈ S'.txs ↔ x ∈ S.txs ∨ x = e := by intro x; rw [e1]; simp
  have hcr : ∀ co, CreatedOn S' co ↔ CreatedOn S co ∨ co ∈ e.tx.coinOutputs := by
    intro co
    constructor
    · rintro ⟨x, hx, hco⟩
      rcases (hmem x).1 hx with hx | rfl
      · exact .inl ⟨x, hx, hco⟩
      · exact .inr hco
    · rintro (⟨x, hx, hco⟩ | hco)
      · exact ⟨x, (hmem x).2 (.inl hx), hco⟩
      · exact ⟨e, (hmem e).2 (.inr rfl), hco⟩
  have hei : ∃ l', e.tx.coinInputs = some l' ∧ l'.map CoinInput.parentId = spent.map CoinOutput.id := by
    rw [hi] at e3
    cases he : e.tx.coinInputs with
    | none => rw [he] at e3; cases e3
    | some l' =>
      rw [he] at e3
      simp only [Option.map_some, Option.some.injEq] at e3
      exact ⟨l', rfl, e3.trans hids⟩
  obtain ⟨l', he, hl'⟩ := hei
  have hsp : ∀ id, Spends e.tx id ↔ ∃ co ∈ spent, co.id = id := by
    intro id
    constructor
    · rintro ⟨l2, h2, ci, hci, rfl⟩
      rw [he] at h2; cases h2
      have : ci.parentId ∈ spent.map CoinOutput.id := by rw [← hl']; exact List.mem_map.2 ⟨ci, hci, rfl⟩
      obtain ⟨co, h3, h4⟩ := List.mem_map.1 this
      exact ⟨co, h3, h4⟩
    · rintro ⟨co, hco, rfl⟩
      have : co.id ∈ l'.map CoinInput.parentId := by rw [hl']; exact List.mem_map.2 ⟨co, hco, rfl⟩
      obtain ⟨ci, h3, h4⟩ := List.mem_map.1 this
      exact ⟨l', he, ci, h3, h4⟩
  have hspo : ∀ id, SpentOn S' id ↔ SpentOn S id ∨ ∃ co ∈ spent, co.id = id := by
    intro id
    constructor
    · rintro ⟨x, hx, hs⟩
      rcases (hmem x).1 hx with hx | rfl
      · exact .inl ⟨x, hx, hs⟩
      · exact .inr ((hsp id).1 hs)
    · rintro (⟨x, hx, hs⟩ | hs)
      · exact ⟨x, (hmem x).2 (.inl hx), hs⟩
      · exact ⟨e, (hmem e).2 (.inr rfl), (hsp id).2 hs⟩
  -- what is unspent afterwards
  have hunsp : ∀ co, (UnspentOn S' co ∧ Identified co) ↔ ((UnspentOn S co ∧ Identified co) ∧ co ∉ spent) ∨ co ∈ e.tx.coinOutputs := by
    intro co
    constructor
    · rintro ⟨⟨hc, hns⟩, hid⟩
      rcases (hcr co).1 hc with hc | hc
      · refine .inl ⟨⟨⟨hc, fun h => hns ((hspo _).2 (.inl h))⟩, hid⟩, fun h => hns ((hspo _).2 (.inr ⟨co, h, rfl⟩))⟩
      · exact .inr hc
    · rintro (⟨⟨⟨hc, hns⟩, hid⟩, hnot⟩ | hc)
      · refine ⟨⟨(hcr co).2 (.inl hc), ?_⟩, hid⟩
        intro h
        rcases (hspo _).1 h with h | ⟨co', h1, h2⟩
        · exact hns h
        · exact hnot (by rw [mem_of_ids hl hc (hun co' h1).1.1 hid h2.symm]; exact h1)
      · obtain ⟨k1, k2, k3, k4⟩ := e4 co hc
        refine ⟨⟨(hcr co).2 (.inr hc), ?_⟩, k1⟩
        intro h
        rcases (hspo _).1 h with h | ⟨co', h1, h2⟩
        · exact k3 h
        · exact k4 co' (hun co' h1).1.1 h2
  refine ⟨⟨?_, ?_, ?_, ?_, ?_, ?_, ?_⟩, ?_, ?_⟩
  · intro x hx hw co hco
    rcases (hmem x).1 hx with hx | rfl
    · exact hl.full x hx hw co hco
    · exact (e4 co hco).1
  · intro x hx x' hx' co hco co' hco' hid eq
    rcases (hmem x).1 hx with hx | rfl <;> rcases (hmem x').1 hx' with hx' | rfl
    · exact hl.ids x hx x' hx' co hco co' hco' hid eq
    · exact absurd eq ((e4 co' hco').2.2.2 co ⟨x, hx, hco⟩)
    · exact absurd eq.symm ((e4 co hco).2.2.2 co' ⟨x', hx', hco'⟩)
    · exact ⟨rfl, List.inj_on_of_nodup_map e5 hco hco' eq⟩
  · intro x hx k hk ci hci co hco hid eq
    rcases (hmem x).1 hx with hx | rfl
    · rcases (hcr co).1 hco with hco | hco
      · exact hl.parents x hx k hk ci hci co hco hid eq
      · exact absurd ⟨x, hx, k, hk, ci, hci, eq⟩ (e4 co hco).2.2.1
    · rcases (hcr co).1 hco with hco | hco
      · exact e6 k hk ci hci co hco hid eq
      · obtain ⟨co', h1, h2⟩ := (hsp co.id).1 ⟨k, hk, ci, hci, eq⟩
        exact absurd h2 ((e4 co hco).2.2.2 co' (hun co' h1).1.1)
  · intro co hco
    rcases (hcr co).1 hco with hco | hco
    · exact hl.amounts co hco
    · exact (e4 co hco).2.1
  · intro k hk hu
    -- the old ones among them, the new ones, and what was spent
    have h1 : total (k.filter (· ∈ e.tx.coinOutputs)) ≤ total e.tx.coinOutputs := by
      have hsub : k.filter (· ∈ e.tx.coinOutputs) ⊆ e.tx.coinOutputs := by
        intro co hco
        exact of_decide_eq_true (List.mem_filter.1 hco).2
      obtain ⟨l2, hp, hs⟩ := (hk.filter (· ∈ e.tx.coinOutputs)).subperm hsub
      rw [← total_perm hp]
      exact total_sublist hs
    have h2 : total (k.filter (fun co => !decide (co ∈ e.tx.coinOutputs)) ++ spent) < 10 ^ 28 := by
      apply hl.supply
      · refine List.nodup_append.2 ⟨hk.filter _, hsn, ?_⟩
        intro a ha b hb hab
        subst hab
        obtain ⟨h3, h4⟩ := List.mem_filter.1 ha
        rcases (hunsp a).1 (hu a h3) with ⟨_, h5⟩ | h5
        · exact h5 hb
        · simp [h5] at h4
      · intro co hco
        rcases List.mem_append.1 hco with hco | hco
        · obtain ⟨h3, h4⟩ := List.mem_filter.1 hco
          rcases (hunsp co).1 (hu co h3) with ⟨h5, _⟩ | h5
          · exact h5
          · simp [h5] at h4
        · exact hun co hco
    have h3 : total k = total (k.filter (· ∈ e.tx.coinOutputs)) + total (k.filter (fun co => !decide (co ∈ e.tx.coinOutputs))) := by
      rw [← total_append]
      exact (total_perm (List.filter_append_perm _ k)).symm
    rw [total_append] at h2
    omega
  · rintro x hx co hco hid hs
    rcases (hmem x).1 hx with hx | rfl
    · exact hl.later x hx co hco hid hs
    · obtain ⟨co', h1, h2⟩ := (hsp co.id).1 hs
      exact absurd h2 ((e4 co hco).2.2.2 co' (hun co' h1).1.1)
  · have := hl.started
    have := ha.height
    have := ha.time
    omega
  · intro ho
    unfold OnceSpent
    rw [e1]
    refine List.pairwise_append.2 ⟨ho, List.pairwise_singleton _ _, ?_⟩
    intro x hx y hy id h1 h2
    rw [List.mem_singleton] at hy
    subst hy
    obtain ⟨co, h3, rfl⟩ := (hsp id).1 h2
    exact (hun co h3).1.2 ⟨x, hx, h1⟩
  · rintro n ⟨k, hk, hm, rfl⟩
    refine ⟨total (k.filter (fun co => !decide (co ∈ spent))) + total e.tx.coinOutputs, ⟨k.filter (fun co => !decide (co ∈ spent)) ++ e.tx.coinOutputs, ?_, ?_, total_append _ _⟩, ?_⟩
    · refine List.nodup_append.2 ⟨hk.filter _, e5.of_map _, ?_⟩
      intro a ha b hb hab
      subst hab
      exact (e4 a hb).2.2.2 a ((hm a).1 (List.mem_filter.1 ha).1).1.1 rfl
    · intro co
      rw [hunsp co, List.mem_append, List.mem_filter, hm co]
      simp
    · have h1 : total k = total (k.filter (· ∈ spent)) + total (k.filter (fun co => !decide (co ∈ spent))) := by
        rw [← total_append]
        exact (total_perm (List.filter_append_perm _ k)).symm
      have h2 : total (k.filter (· ∈ spent)) = total spent := by
        apply total_perm
        refine (List.perm_ext_iff_of_nodup (hk.filter _) hsn).2 ?_
        intro co
        rw [List.mem_filter, hm co]
        constructor
        · rintro ⟨_, h⟩; exact of_decide_eq_true h
        · intro h; exact ⟨hun co h, decide_eq_true h⟩
      omega

theorem valid_keeps {W : World} {S S' : ChainState} (hl : LawfulChain S) {t : Tx} (hv : ValidOn W S t) (ha : Accepts S t S') :
    LawfulChain S' ∧ (OnceSpent S → OnceSpent S') ∧ ∀ n, Circulating S n → ∃ n', Circulating S' n' ∧ n' + (amount W.fee + charged t) = n := by
  obtain ⟨l, spent, h1, _, h3, h4, h5, _, h7⟩ := hv.inputs
  exact accepts_keeps hl ha h1 h4 h3 (fun co hco => ⟨(h5 co hco).2.1, (h5 co hco).1⟩) (by omega)

theorem claim_keeps {W : SwapWorld} {S S' : ChainState} (hl : LawfulChain S) {t : Tx} (hv : ClaimOn W S t) (ha : Accepts S t S') :
    LawfulChain S' ∧ (OnceSpent S → OnceSpent S') ∧ ∀ n, Circulating S n → ∃ n', Circulating S' n' ∧ n' + amount W.fee = n := by
  obtain ⟨ci, co, _, _, _, _, _, _, _, h1, h2, h3, h4, _, _, _, _, h5⟩ := hv.input
  refine accepts_keeps hl ha (spent := [co]) h1 (by simp [h2]) (by simp) ?_ (by simp [total]; simpa [total] using h5)
  intro x hx
  rw [List.mem_singleton] at hx
  rw [hx]
  exact ⟨h4, h3⟩

/-- A new contract charges nothing. -/
theorem contract_charged {W : SwapWorld} {C : Client} {own : List UnlockHash} {S : ChainState} (hi : Informed W.toWorld C own S) {secret : Bytes} {hash : BVal}
    {r : Recipient} {amt : CVal} (legal : ∀ c, amt = .cur c → GoodCurrency c) {time : LockVal} {src : Source} {refund : Recipient} {data : DataArg} {submit : Bool} {t : Tx}
    (ht : t ∈ (W.initiate secret r amt time src refund data submit).posted ∨ t ∈ (W.participate r amt hash time src refund data submit).posted) : charged t = 0 := by
  obtain ⟨h, hp⟩ : ∃ h, Produces (W.createContract r amt time src refund data h submit) t := by
    rcases ht with ht | ht
    · obtain ⟨h, _, ht⟩ := ofRes_posted ht
      exact ⟨h, .inl ht⟩
    · obtain ⟨h, _, ht⟩ := ofRes_posted ht
      exact ⟨h, .inl ht⟩
  obtain ⟨a, w, t0, t1, h1, hw, h3, h4, h5⟩ := createContract_produces hp
  obtain ⟨_, _, hs⟩ := offered_all hi.chain hi.mints hi.withdrawals hw
  obtain ⟨a', s', u', T', e1, e2, _, _, _, hpay⟩ := createContract_spec hw hs hi.fee legal hp
  obtain ⟨v, rfl, _⟩ := hpay.standard
  rfl

/-- Time alone changes nothing. -/
theorem waiting_keeps {S S' : ChainState} (hl : LawfulChain S) (same : S'.txs = S.txs) (height : S.height ≤ S'.height) (time : S.time ≤ S'.time) :
    LawfulChain S' ∧ (OnceSpent S → OnceSpent S') ∧ ∀ n, Circulating S n → Circulating S' n := by
  have hc : ∀ co, CreatedOn S' co ↔ CreatedOn S co := by intro co; simp only [CreatedOn, same]
  have hs : ∀ id, SpentOn S' id ↔ SpentOn S id := by intro id; simp only [SpentOn, same]
  have hu : ∀ co, UnspentOn S' co ↔ UnspentOn S co := by intro co; simp only [UnspentOn, hc, hs]
  refine ⟨⟨?_, ?_, ?_, ?_, ?_, ?_, ?_⟩, ?_, ?_⟩
  · rw [same]; exact hl.full
  · rw [same]; exact hl.ids
  · rw [same]; intro t ht l h ci hci co hco; exact hl.parents t ht l h ci hci co ((hc co).1 hco)
  · intro co hco; exact hl.amounts co ((hc co).1 hco)
  · intro l hl' h; exact hl.supply l hl' fun co hco => ⟨(hu co).1 (h co hco).1, (h co hco).2⟩
  · rw [same]; exact hl.later
  · have := hl.started; omega
  · unfold OnceSpent; rw [same]; exact id
  · rintro n ⟨l, h1, h2, h3⟩
    exact ⟨l, h1, fun co => by rw [h2, hu], h3⟩

/-- What circulates is a number, and one only. -/
theorem circulating_unique {S : ChainState} {n m : Nat} (h : Circulating S n) (h' : Circulating S m) : n = m := by
  obtain ⟨l, h1, h2, rfl⟩ := h
  obtain ⟨l', h1', h2', rfl⟩ := h'
  exact total_perm ((List.perm_ext_iff_of_nodup h1 h1').2 fun co => by rw [h2, h2'])

@[inherit_doc circulating_unique] theorem circulating_exists (S : ChainState) : ∃ n, Circulating S n := by
  classical
  refine ⟨_, ((chainOutputs S).dedup.filter fun co => decide (UnspentOn S co ∧ Identified co)), (List.nodup_dedup _).filter _, ?_, rfl⟩
  intro co
  rw [List.mem_filter, List.mem_dedup, mem_chainOutputs]
  simp only [decide_eq_true_eq]
  exact ⟨fun h => h.2, fun h => ⟨h.1.1, h⟩⟩

/-- What a step does. -/
theorem step_keeps {S S' : ChainState} {acts : List World} {own : List UnlockHash} {cost : Nat} (hl : LawfulChain S) (step : Step S S' acts own cost) :
    LawfulChain S' ∧ (OnceSpent S → OnceSpent S') ∧ ∀ n, Circulating S n → ∃ n', Circulating S' n' ∧ n' + cost = n := by
  cases step with
  | paying W C own hi src refund o call t posted taken =>
    exact valid_keeps hl (C120_valid_partial W C own S hi.chain hi.mints hi.withdrawals hi.fee hi.positive src refund o call t posted) taken
  | initiating W C own hi secret r amt legal time src refund data submit t posted taken =>
    have hv := C120_contract_partial W C own S hi.chain hi.mints hi.withdrawals hi.fee hi.positive secret .none r amt legal time src refund data submit t (.inl posted)
    have := valid_keeps hl hv taken
    rwa [show charged t = 0 from contract_charged hi legal (hash := .none) (.inl posted)] at this
  | participating W C own hi hash r amt legal time src refund data submit t posted taken =>
    have hv := C120_contract_partial W C own S hi.chain hi.mints hi.withdrawals hi.fee hi.positive [] hash r amt legal time src refund data submit t (.inr posted)
    have := valid_keeps hl hv taken
    rwa [show charged t = 0 from contract_charged hi legal (secret := []) (.inr posted)] at this
  | redeeming W C hi sha hash keys fee id secret names full worth data t posted taken =>
    exact claim_keeps hl (C120_redeem_partial W C S hi sha hash keys fee id secret names full worth data t posted) taken
  | refunding W C hi hash keys fee id names worth other data t posted taken =>
    exact claim_keeps hl (C120_refund_partial W C S hi hash keys fee id names worth other data t posted) taken
  | waiting same height time =>
    obtain ⟨h1, h2, h3⟩ := waiting_keeps hl same height time
    exact ⟨h1, h2, fun n hn => ⟨n, h3 n hn, rfl⟩⟩

/-- **C121** (what holds). However many wallets pay and claim in whatever order on a chain, each told the truth about the chain as it is then: the chain stays lawful,
and what circulates is what circulated before, less the miner fees and charges. -/
theorem C121_conserved_partial (S S' : ChainState) (n paid : Nat) (acting : List World) (who : List UnlockHash) (hl : LawfulChain S) (hn : Circulating S n) (hr : Runs S S' acting who paid) :
    LawfulChain S' ∧ ∃ n', Circulating S' n' ∧ n' + paid = n := by
  induction hr with
  | start => exact ⟨hl, n, hn, rfl⟩
  | more S1 S2 acting acts who own a b before step ih =>
    obtain ⟨hl1, n1, hn1, rfl⟩ := ih
    obtain ⟨h1, _, h2⟩ := step_keeps hl1 step
    obtain ⟨n', h3, h4⟩ := h2 n1 hn1
    exact ⟨h1, n', h3, by omega⟩

/-- **C121** (what holds): no output is spent twice. -/
theorem C121_once_partial (S S' : ChainState) (paid : Nat) (acting : List World) (who : List UnlockHash) (hl : LawfulChain S) (ho : OnceSpent S) (hr : Runs S S' acting who paid) : OnceSpent S' := by
  suffices h : LawfulChain S' ∧ OnceSpent S' from h.2
  induction hr with
  | start => exact ⟨hl, ho⟩
  | more S1 S2 acting acts who own a b before step ih =>
    obtain ⟨h1, h2, _⟩ := step_keeps ih.1 step
    exact ⟨h1, h2 ih.2⟩

/-- An output of an address the wallet does not have is not among those it offers. -/
theorem not_offered {W : World} {C : Client} {own : List UnlockHash} {S : ChainState} (ho : OnChain W C own S) (hm : NoMinting C own) (hnw : NoWithdrawals C own)
    {w : Wallets} (hw : W.balance = .ok w) {co : CoinOutput} (hun : UnspentOn S co) (hid : Identified co) {u : UnlockHash} (hu : u.type = 1)
    (hcan : CanonicalAddress u) (hco : co.condition.unwrap = .unlockHash u) (hnot : u ∉ own) : ∀ co' ∈ walletsSpendable w, co'.id ≠ co.id := by
  intro co' hco' e
  have hH : Digest32 C.H := by rw [ho.hash]; exact ho.digest
  obtain ⟨g1, _, _, info, g4⟩ := offered_spec ho hm hnw hw
  have hat : AtAddress C.H (u.str C.H) co := by
    refine ⟨u, ?_, rfl⟩
    cases hcc : co.condition <;> rw [hcc] at hco <;> simp only [Condition.unwrap, reduceCtorEq, Condition.unlockHash.injEq] at hco
    · subst hco; rfl
    · subst hco; rfl
  rcases List.mem_append.1 hco' with h | h
  · obtain ⟨h1, v, h2, h3, h4, h5⟩ := g1 co' h
    obtain rfl := mem_of_ids ho.lawful h1.2.1.1 hun.1 h1.1 e
    exact hnot (by rw [text_inj hH hcan h4 (at_inj hat h5)]; exact h2)
  · obtain ⟨p, hp, h⟩ := List.mem_flatMap.1 h
    obtain ⟨v, _, ⟨h2, h3, _⟩, _, _, h5, _⟩ := g4 p hp
    obtain ⟨k1, k2⟩ := h5 co' h
    obtain rfl := mem_of_ids ho.lawful k1.2.1.1 hun.1 k1.1 e
    rw [text_inj hH hcan h3 (at_inj hat k2), h2] at hu
    exact absurd hu (by decide)

theorem accepts_untouched {S S' : ChainState} {t : Tx} (ha : Accepts S t S') {co : CoinOutput} (hun : UnspentOn S co) (h : ¬ Spends t co.id) : UnspentOn S' co := by
  obtain ⟨e, e1, _, e3, _⟩ := ha.entry
  obtain ⟨⟨x, hx, hco⟩, hns⟩ := hun
  refine ⟨⟨x, by rw [e1]; simp [hx], hco⟩, ?_⟩
  rintro ⟨y, hy, hs⟩
  rw [e1] at hy
  rcases List.mem_append.1 hy with hy | hy
  · exact hns ⟨y, hy, hs⟩
  · rw [List.mem_singleton] at hy
    subst hy
    apply h
    obtain ⟨l, hl, ci, hci, e⟩ := hs
    rw [hl] at e3
    cases ht : t.coinInputs with
    | none => rw [ht] at e3; cases e3
    | some l' =>
      rw [ht] at e3
      simp only [Option.map_some, Option.some.injEq] at e3
      have : ci.parentId ∈ l'.map CoinInput.parentId := by rw [← e3]; exact List.mem_map.2 ⟨ci, hci, rfl⟩
      obtain ⟨ci', h1, h2⟩ := List.mem_map.1 this
      exact ⟨l', ht, ci', h1, h2.trans e⟩

theorem claim_spends {W : SwapWorld} {S : ChainState} (hl : LawfulChain S) {t : Tx} (hv : ClaimOn W S t) {co : CoinOutput} (hun : UnspentOn S co) {u : UnlockHash}
    (hco : co.condition.unwrap = .unlockHash u) : ¬ Spends t co.id := by
  obtain ⟨ci, co', s, r, hs, since, _, _, _, h1, h2, h3, h4, h5, _⟩ := hv.input
  rintro ⟨l, hl', c, hc, e⟩
  rw [h1] at hl'; cases hl'
  rw [List.mem_singleton] at hc
  subst hc
  obtain rfl := mem_of_ids hl h4.1 hun.1 h3 (h2.symm.trans e)
  rw [h5] at hco
  cases hco

/-- **C121** (what holds): whatever others do, an unspent output of a personal address stays unspent. -/
theorem C121_untouched_partial (S S' : ChainState) (paid : Nat) (acting : List World) (who : List UnlockHash) (hl : LawfulChain S) (hr : Runs S S' acting who paid) (co : CoinOutput) (u : UnlockHash)
    (hun : UnspentOn S co) (hid : Identified co) (hu : u.type = 1) (hcan : CanonicalAddress u) (hco : co.condition.unwrap = .unlockHash u) (hnot : u ∉ who) :
    UnspentOn S' co := by
  suffices h : LawfulChain S' ∧ UnspentOn S' co from h.2
  induction hr with
  | start => exact ⟨hl, hun⟩
  | more S1 S2 acting acts who own a b before step ih =>
    rw [List.mem_append, not_or] at hnot
    obtain ⟨hl1, hun1⟩ := ih hnot.1
    refine ⟨(step_keeps hl1 step).1, ?_⟩
    have funds : ∀ {W : World} {C : Client} {own : List UnlockHash} {t : Tx} {src : Source} {w : Wallets}, Informed W C own S1 → u ∉ own → W.balance = .ok w →
        FundsFit W w src t → ¬ Spends t co.id := by
      rintro W C own t src w hi hn hw ⟨_, _, l, h1, h2, _⟩ ⟨l', hl', ci, hci, e⟩
      rw [h1] at hl'; cases hl'
      obtain ⟨co', k1, k2, _⟩ := h2 ci hci
      exact not_offered hi.chain hi.mints hi.withdrawals hw hun1 hid hu hcan hco hn co' (eligible_offered k1) (k2.symm.trans e)
    have contract : ∀ {W : SwapWorld} {C : Client} {own : List UnlockHash} {t : Tx} {r : Recipient} {amt : CVal} {time : LockVal} {src : Source} {refund : Recipient}
        {data : DataArg} {submit : Bool} {h : Bytes}, Informed W.toWorld C own S1 → u ∉ own → (∀ c, amt = .cur c → GoodCurrency c) →
        Produces (W.createContract r amt time src refund data h submit) t → ¬ Spends t co.id := by
      rintro W C own t r amt time src refund data submit h hi hn legal hp ⟨l', hl', ci, hci, e⟩
      obtain ⟨a, w, t0, t1, h1, hw, h3, h4, h5⟩ := createContract_produces hp
      obtain ⟨_, _, hs⟩ := offered_all hi.chain hi.mints hi.withdrawals hw
      obtain ⟨a', s', u', T', e1, e2, _, _, _, hpay⟩ := createContract_spec hw hs hi.fee legal hp
      obtain ⟨l, k1, _, k2, _⟩ := hpay.inputs
      rw [k1] at hl'; cases hl'
      obtain ⟨co', k1, k2, _⟩ := k2 ci hci
      exact not_offered hi.chain hi.mints hi.withdrawals hw hun1 hid hu hcan hco hn co' (eligible_offered k1) (k2.symm.trans e)
    cases step with
    | paying W C own hi src refund o call t posted taken =>
      obtain ⟨w, hw⟩ := paying_balance call (.inl posted)
      obtain ⟨_, _, hs⟩ := offered_all hi.chain hi.mints hi.withdrawals hw
      exact accepts_untouched taken hun1 (funds hi hnot.2 hw (paying_funds hw hs hi.fee call (.inl posted)))
    | initiating W C own hi secret r amt legal time src refund data submit t posted taken =>
      obtain ⟨h, _, hp⟩ := ofRes_posted posted
      exact accepts_untouched taken hun1 (contract hi hnot.2 legal (.inl hp))
    | participating W C own hi hash r amt legal time src refund data submit t posted taken =>
      obtain ⟨h, _, hp⟩ := ofRes_posted posted
      exact accepts_untouched taken hun1 (contract hi hnot.2 legal (.inl hp))
    | redeeming W C hi sha hash keys fee id secret names full worth data t posted taken =>
      exact accepts_untouched taken hun1 (claim_spends hl1 (C120_redeem_partial W C S1 hi sha hash keys fee id secret names full worth data t posted) hun1 hco)
    | refunding W C hi hash keys fee id names worth other data t posted taken =>
      exact accepts_untouched taken hun1 (claim_spends hl1 (C120_refund_partial W C S1 hi hash keys fee id names worth other data t posted) hun1 hco)
    | waiting same height time =>
      unfold UnspentOn CreatedOn SpentOn
      rw [same]
      exact hun1

/-- **C121**: what circulates is always defined, and one number. -/
theorem C121_number (S : ChainState) : ∃ n, Circulating S n ∧ ∀ m, Circulating S m → m = n := by
  obtain ⟨n, hn⟩ := circulating_exists S
  exact ⟨n, hn, fun m hm => circulating_unique hm hn⟩

/-! ## The network can take what is submitted -/

/-- The outputs as a chain lists them, with ids. -/
def listed (outs : List CoinOutput) (ids : List Hash) : List CoinOutput := List.zipWith (fun co id => ⟨⟨some ⟨false, amount co.value, -9⟩⟩, co.condition, id⟩) outs ids

theorem listed_pays : ∀ (outs : List CoinOutput) (ids : List Hash), ids.length = outs.length → (listed outs ids).map pays = outs.map pays ∧ (listed outs ids).map CoinOutput.id = ids
  | [], [], _ => ⟨rfl, rfl⟩
  | co :: outs, id :: ids, h => by
    obtain ⟨h1, h2⟩ := listed_pays outs ids (by simpa using h)
    refine ⟨?_, ?_⟩
    · show pays _ :: (listed outs ids).map pays = _
      rw [h1]
      have : amount ⟨some ⟨false, amount co.value, -9⟩⟩ = amount co.value := Nat.mul_one _
      simp [pays, this]
    · show id :: (listed outs ids).map CoinOutput.id = _
      rw [h2]

theorem listed_good : ∀ (outs : List CoinOutput) (ids : List Hash), ∀ co ∈ listed outs ids, GoodCurrency co.value
  | [], _, co, h => by simp [listed] at h
  | _ :: _, [], co, h => by simp [listed] at h
  | c :: outs, id :: ids, co, h => by
    rcases List.mem_cons.1 h with rfl | h
    · exact ⟨rfl, Int.le_refl _⟩
    · exact listed_good outs ids co h

/-- The transaction as a chain lists it. -/
def listedTx (S : ChainState) (t : Tx) (l : List CoinInput) (ids : List Hash) : Tx :=
  .v1 { coinInputs := l.map fun ci => ⟨ci.parentId, ci.fulfillment, (chainOutputs S).find? fun co => co.id = ci.parentId⟩, coinOutputs := listed t.coinOutputs ids }

/-- Any chain can take any transaction under ids nobody has used. -/
theorem accepts_listed {S : ChainState} (hl : LawfulChain S) (t : Tx) (ids : List Hash) (hlen : ids.length = t.coinOutputs.length) (hnd : ids.Nodup)
    (hnew : ∀ id ∈ ids, id.value.length = 32 ∧ ¬ SpentOn S id ∧ ∀ co, CreatedOn S co → co.id ≠ id) (l : List CoinInput) (hi : t.coinInputs = some l) :
    ∃ S' e, Accepts S t S' ∧ S'.txs = S.txs ++ [e] ∧ e.tx.coinOutputs.map CoinOutput.id = ids := by
  obtain ⟨h1, h2⟩ := listed_pays t.coinOutputs ids hlen
  refine ⟨⟨S.txs ++ [⟨listedTx S t l ids, ⟨[]⟩, false, S.height⟩], S.height, S.time⟩, ⟨listedTx S t l ids, ⟨[]⟩, false, S.height⟩,
    ⟨⟨⟨listedTx S t l ids, ⟨[]⟩, false, S.height⟩, rfl, h1, ?_, ?_, ?_, ?_⟩, Int.le_refl _, Int.le_refl _⟩, rfl, h2⟩
  · rw [hi]
    simp [Tx.coinInputs, listedTx, Function.comp_def]
  · intro co hco
    have hm : co.id ∈ ids := by rw [← h2]; exact List.mem_map.2 ⟨co, hco, rfl⟩
    obtain ⟨k1, k2, k3⟩ := hnew co.id hm
    exact ⟨k1, listed_good _ _ co hco, k2, k3⟩
  · show ((listed t.coinOutputs ids).map CoinOutput.id).Nodup
    rw [h2]; exact hnd
  · intro l' hl' ci hci co hco hid e
    cases hl'
    obtain ⟨ci', _, rfl⟩ := List.mem_map.1 hci
    show CoinOutput.condition (((chainOutputs S).find? fun co => co.id = ci'.parentId).getD .default) = _
    cases hf : (chainOutputs S).find? fun co => co.id = ci'.parentId with
    | none =>
      have := List.find?_eq_none.1 hf co (mem_chainOutputs.2 hco)
      simp at this
      exact absurd e.symm this
    | some co' =>
      have k1 := List.find?_some hf
      have k2 := mem_chainOutputs.1 (List.mem_of_find?_eq_some hf)
      simp only [decide_eq_true_eq] at k1
      simp only at e
      rw [Option.getD_some, ← mem_of_ids hl hco k2 hid (e.symm.trans k1.symm)]

/-- Any chain can take any transaction, given ids nobody has used. -/
theorem accepts_exists {S : ChainState} (hl : LawfulChain S) (t : Tx) (ids : List Hash) (hlen : ids.length = t.coinOutputs.length) (hnd : ids.Nodup)
    (hnew : ∀ id ∈ ids, id.value.length = 32 ∧ ¬ SpentOn S id ∧ ∀ co, CreatedOn S co → co.id ≠ id) (l : List CoinInput) (hi : t.coinInputs = some l) :
    ∃ S', Accepts S t S' := by
  obtain ⟨S', _, h, _⟩ := accepts_listed hl t ids hlen hnd hnew l hi
  exact ⟨S', h⟩

/-- What the network asks, checked. -/
def freshCheck (S : ChainState) (ids : List Hash) : Bool :=
  ids.all fun id => id.value.length == 32 && (S.txs.all fun t => (t.tx.coinInputs.getD []).all fun ci => decide (ci.parentId ≠ id)) && (chainOutputs S).all fun co => decide (co.id ≠ id)

theorem fresh_of_check {S : ChainState} {ids : List Hash} (h : freshCheck S ids = true) :
    ∀ id ∈ ids, id.value.length = 32 ∧ ¬ SpentOn S id ∧ ∀ co, CreatedOn S co → co.id ≠ id := by
  intro id hid
  have := List.all_eq_true.1 h id hid
  simp only [Bool.and_eq_true, beq_iff_eq] at this
  obtain ⟨⟨h1, h2⟩, h3⟩ := this
  refine ⟨h1, ?_, fun co hco => of_decide_eq_true (List.all_eq_true.1 h3 co (mem_chainOutputs.2 hco))⟩
  rintro ⟨t, ht, l, hl, ci, hci, e⟩
  have := List.all_eq_true.1 h2 t ht
  rw [hl] at this
  exact of_decide_eq_true (List.all_eq_true.1 this ci hci) e

/-- The chain of `richWorld` with another output that belongs to somebody else. -/
def guestCoin : CoinOutput := ⟨ten, .lockTime 50 (.unlockHash (addrOf key2)), ⟨List.replicate 32 41⟩⟩
@[inherit_doc guestCoin] def guestChain : ChainState := ⟨richChain.txs ++ [⟨.v1 { coinOutputs := [guestCoin] }, ⟨List.replicate 32 42⟩, false, 7⟩], 100, 1550000000⟩

theorem guest_informed : Informed richWorld (explorerOf richList) [addrOf key1] guestChain :=
  ⟨onChain_of rich_addresses (by decide +kernel) (by decide +kernel) rfl rfl, noMinting_of rich_addresses (by decide +kernel) _,
    noWithdrawals_of rich_addresses (by decide +kernel) _, ⟨rfl, by decide⟩, by decide⟩

/-- A payment of 3 TFT with 0.1 TFT of miner fee, taken by the network. -/
theorem guest_runs : ∃ S', Runs guestChain S' ([] ++ [richWorld]) ([] ++ [addrOf key1]) (0 + 10 ^ 8) := by
  have h1 : ((richWorld.coinsSend (.uh (addrOf key2)) (.int 3) .none .none .none .none).posted.map fun (t : Tx) =>
      (t.coinInputs.map (fun l => l.length), t.coinOutputs.length, charged t)) = [(some 1, 2, 0)] := by decide +kernel
  obtain ⟨t, ht, e⟩ := List.map_eq_singleton_iff.1 h1
  simp only [Prod.mk.injEq] at e
  obtain ⟨e1, e2, e3⟩ := e
  cases hi : t.coinInputs with
  | none => rw [hi] at e1; cases e1
  | some l =>
    obtain ⟨S', hS⟩ := accepts_exists guest_informed.chain.lawful t [⟨List.replicate 32 51⟩, ⟨List.replicate 32 52⟩] e2.symm (by decide)
      (fresh_of_check (by decide +kernel)) l hi
    have hstep := Step.paying (S := guestChain) (S' := S') richWorld _ _ guest_informed .none .none _
      (.coins (.uh (addrOf key2)) (.int 3) .none .none (by intro c hc; cases hc)) t (by rw [ht]; simp) hS
    rw [e3] at hstep
    exact ⟨S', .more _ _ _ _ _ _ _ _ .start hstep⟩

theorem guest_unspent : UnspentOn guestChain guestCoin := by
  have hguest : freshCheck richChain [guestCoin.id] = true := by decide +kernel
  refine ⟨⟨⟨.v1 { coinOutputs := [guestCoin] }, ⟨List.replicate 32 42⟩, false, 7⟩, List.mem_append_right _ (by simp), List.mem_singleton.2 rfl⟩, ?_⟩
  rintro ⟨t, ht, hs⟩
  rcases List.mem_append.1 ht with ht | ht
  · exact (fresh_of_check hguest _ (by simp)).2.1 ⟨t, ht, hs⟩
  · rw [List.mem_singleton] at ht
    subst ht
    obtain ⟨l, hl, ci, hci, _⟩ := hs
    cases hl
    cases hci

/-- The hypotheses of the theorems are met, for `C121_untouched_partial` by the output of somebody else. -/
example : LawfulChain guestChain ∧ OnceSpent guestChain ∧ (∃ S', Runs guestChain S' ([] ++ [richWorld]) ([] ++ [addrOf key1]) (0 + 10 ^ 8)) ∧ UnspentOn guestChain guestCoin ∧
    Identified guestCoin ∧ (addrOf key2).type = 1 ∧ CanonicalAddress (addrOf key2) ∧ guestCoin.condition.unwrap = .unlockHash (addrOf key2) ∧
    addrOf key2 ∉ [] ++ [addrOf key1] := by
  have honce : (guestChain.txs.Pairwise fun t t' => ∀ id ∈ (t.tx.coinInputs.getD []).map CoinInput.parentId, id ∉ (t'.tx.coinInputs.getD []).map CoinInput.parentId) := by
    decide +kernel
  refine ⟨guest_informed.chain.lawful, honce.imp ?_, guest_runs, guest_unspent, rfl, by decide +kernel, .inl (by decide +kernel), rfl, by decide +kernel⟩
  rintro a b h id ⟨l, hl, ci, hci, rfl⟩ ⟨l', hl', ci', hci', e⟩
  refine h ci.parentId (by rw [hl]; exact List.mem_map.2 ⟨ci, hci, rfl⟩) ?_
  rw [hl']
  exact List.mem_map.2 ⟨ci', hci', e⟩

end TF.Props
