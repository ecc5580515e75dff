import Verif.Props.ChainSwap
import Verif.Props.Redeem
import Verif.Props.Spendable
import Verif.Spec.Release
/-! # C137: what is put into a contract can be taken out again, once -/
namespace TF.Props
open TF TF.Spec

theorem expect_self (s : Str) : expect (Json.isStr (.str s) s) = .ok () := by simp [Json.isStr, expect]

/-- What the chain holds and the explorers list is reported. -/
theorem listed_reported {W : SwapWorld} {C : Client} {S : ChainState} (hc : SwapOnChain W C S) {co : CoinOutput} (hl : ListedAlone C co)
    {id : BVal} (hid : Hash.new id = .ok co.id) (hz : co.id.str ≠ List.replicate 64 '0') {c : Contract}
    (hcond : co.condition = .atomicSwap c.sender c.receiver c.secretHash c.lockTime) (hv : co.value = c.amount) (hi : co.id = c.id) : Reported W id c := by
  obtain ⟨resp, e, ct, h1, h2, h3, h4⟩ := hl
  have hin : ct ∈ S.txs := (hc.truthful co.id resp [e] h1 h2).1 e (by simp) ct h3
  have hident : Identified co := by
    refine hc.lawful.full ct hin ?_ co h4
    intro hw
    obtain ⟨y, hy, hy'⟩ := C94_withdrawal_false h3 hw
    rw [hy, List.mem_singleton] at h4
    rw [h4, hy'] at hz
    exact hz (by decide)
  have hfind : findCoin co.id.str ct.tx = .ok co := by
    unfold findCoin
    cases hf : ct.tx.coinOutputs.find? fun o => o.id.str = co.id.str with
    | none =>
      have := List.find?_eq_none.1 hf co h4
      simp at this
    | some o =>
      have hm := List.mem_of_find?_eq_some hf
      have he := List.find?_some hf
      simp only [decide_eq_true_eq] at he
      rw [(hc.lawful.ids ct hin ct hin co h4 o hm hident (hash_str_inj he.symm hz)).2]
  have hread : readOutputTxs C.L C.H .coin resp = .ok (ct, none) := by
    obtain ⟨k1, ts, k2, k3⟩ := h2
    have hx : expect (Json.isStr (.str OutputKind.coin.hashType) OutputKind.coin.hashType) = .ok () := expect_self _
    unfold readOutputTxs
    refine bind_of k1 (bind_of hx (bind_of k2 (bind_of k3 ?_)))
    exact bind_of (show splitTransactions [e] = .ok (e, none) from rfl) (bind_of h3 (bind_of (show parseSpend C.L C.H none = .ok none from rfl) rfl))
  have hget : C.coinOutputGet id = .ok (co, ct, none) := by
    unfold Client.coinOutputGet
    refine bind_of hid (bind_of h1 ?_)
    have e1 : (findCoin co.id.str ct.tx >>= fun o => (.ok (o, ct, none) : Res (CoinOutput × ChainTx × Option ChainTx))) = .ok (co, ct, none) := bind_of hfind rfl
    have e2 : (readOutputTxs C.L C.H .coin resp >>= fun x => findCoin co.id.str x.1.tx >>= fun o => (.ok (o, x.1, x.2) : Res (CoinOutput × ChainTx × Option ChainTx))) =
        .ok (co, ct, none) := bind_of hread e1
    exact congrArg keyErrorInvalid e2
  refine ⟨co, ?_, hcond, hv, hi⟩
  rw [hc.output, hget]
  rfl

theorem claim_releases {W : SwapWorld} {C : Client} {S : ChainState} (hc : SwapOnChain W C S) {co : CoinOutput} {c : Contract} (hv : co.value = c.amount)
    (hi : co.id = c.id) {u : UnlockHash} {sec : Option Bytes} {data : DataArg} {t : Tx} (hcl : Claims W.toWorld c u sec data t) (hon : ClaimOn W S t) :
    Releases W S co u t := by
  obtain ⟨ci, k, s, i1, i2, -⟩ := hcl.input
  obtain ⟨out, o1, o2, o3⟩ := hcl.output
  refine ⟨by rw [i1, hi, ← i2]; rfl, ?_, hon, fun id g1 g2 g3 => ?_⟩
  · rw [o1, hv]
    simp only [List.map_cons, List.map_nil, pays, o2, List.cons.injEq, Prod.mk.injEq, and_true]
    have : amount out.value + amount W.fee = amount c.amount := o3
    omega
  · exact accepts_exists hc.lawful t [id] (by rw [o1]; rfl) (by simp) (by intro x hx; rw [List.mem_singleton] at hx; subst hx; exact ⟨g1, g2, g3⟩) [ci] i1

/-- One reported contract per identifier. -/
theorem reported_same {W : SwapWorld} {id : BVal} {c c' : Contract} (h : Reported W id c) (h' : Reported W id c') :
    c'.id = c.id ∧ c'.sender = c.sender ∧ c'.receiver = c.receiver ∧ c'.secretHash = c.secretHash ∧ c'.lockTime = c.lockTime ∧ c'.amount = c.amount := by
  obtain ⟨co, h1, h2, h3, h4⟩ := h
  obtain ⟨co', k1, k2, k3, k4⟩ := h'
  rw [h1] at k1
  cases k1
  rw [h2] at k2
  injection k2 with e1 e2 e3 e4
  exact ⟨k4.symm.trans h4, e1.symm, e2.symm, e3.symm, e4.symm, k3.symm.trans h3⟩

theorem claims_same {W : World} {c c' : Contract} {u : UnlockHash} {sec : Option Bytes} {data : DataArg} {t : Tx} (h : Claims W c' u sec data t)
    (e : c'.id = c.id ∧ c'.sender = c.sender ∧ c'.receiver = c.receiver ∧ c'.secretHash = c.secretHash ∧ c'.lockTime = c.lockTime ∧ c'.amount = c.amount) :
    Claims W c u sec data t := by
  obtain ⟨e1, e2, e3, e4, e5, e6⟩ := e
  obtain ⟨a, b, d, f⟩ := h
  rw [e1, e2, e3, e4, e5, e6] at b
  rw [e6] at d
  exact ⟨a, b, d, f⟩

theorem sane_of {W : SwapWorld} {C : Client} {S : ChainState} (hc : SwapOnChain W C S) {id : BVal} (hid : OutputIdArg id) {c : Contract} (h : Reported W id c) :
    SaneAmount c.amount := by
  obtain ⟨co, _, _, h3, _, _, _, h7⟩ := reported_on hc hid h
  rw [← h3]; exact h7

theorem more_of {W : SwapWorld} {id : BVal} {co : CoinOutput} {c : Contract} (hv : co.value = c.amount) (h : Reported W id c)
    (hfee : amount W.fee < amount co.value) : ∀ co', W.output id = .ok (co', false) → amount W.fee < amount co'.value := by
  intro co' h'
  obtain ⟨x, h1, _, h3, _⟩ := h
  rw [h1] at h'
  cases h'
  rw [h3, ← hv]
  exact hfee

/-- **C137** (redeem). Whoever has the key of the receiver and the secret of 32 bytes takes out what a contract of the chain holds. -/
theorem C137_redeem_partial (W : SwapWorld) (C : Client) (S : ChainState) (hc : SwapOnChain W C S) (hs : Digest32 W.sha) (hH : Digest32 W.H)
    (keys : GoodKeys W.toWorld) (owns : OwnsKeys W.toWorld) (readable : Readable W.toWorld) (fee : GoodCurrency W.fee) (clock : ∃ now, W.chainTime = .ok now)
    (co : CoinOutput) (listed : ListedAlone C co) (id : BVal) (hid : Hash.new id = .ok co.id) (hz : co.id.str ≠ List.replicate 64 '0')
    (sender receiver : UnlockHash) (secret : BVal) (s : Bytes) (since : Int) (holds : co.condition = .atomicSwap sender receiver (some (W.sha s)) since)
    (fits : HashFits sender.hash ∧ HashFits receiver.hash) (present : ¬ HasAddress W.H .default (sender.str W.H)) (worth : amount W.fee < amount co.value)
    (known : Gives secret s) (len : s.length = 32) (mine : Spec.Holds W.toWorld receiver) (data : DataArg) (b : Bytes) (hd : payload data = some b) (hdl : b.length ≤ 83) :
    ∃ t, (W.redeem id secret data).posted = [t] ∧ Releases W S co receiver t := by
  obtain ⟨now, ht⟩ := clock
  let c : Contract := ⟨co.id, sender, receiver, some (W.sha s), since, co.value, false⟩
  have hr : Reported W id c := listed_reported hc listed hid hz holds rfl rfl
  have harg : OutputIdArg id := ⟨_, hid, hz⟩
  have hcid : HashFits c.id := by
    obtain ⟨_, _, _, _, h4, h5, _⟩ := reported_on hc harg hr
    show c.id.value.length ≤ 32
    rw [← h4]; exact Nat.le_of_eq h5
  obtain ⟨k, _, hka, hkp, _⟩ := holds_key hH owns mine
  obtain ⟨t, hp⟩ := C90_redeem_partial W hs hH keys owns readable fee id secret data c now b hr ht
    ⟨hcid, fits.1, fits.2, sane_of hc harg hr, present, hkp⟩ (Nat.le_of_lt worth) ⟨s, known, rfl⟩ mine hd hdl
  have ht' : t ∈ (W.redeem id secret data).posted := by rw [hp]; simp
  have hsec : ∀ x, Gives secret x → x.length = 32 := by
    intro x hx
    have : secretNew secret = .ok x := secretNew_ok.2 hx
    rw [secretNew_ok.2 known] at this
    cases this
    exact len
  have hne : secret ≠ .none := by
    rintro rfl
    have := hsec [] rfl
    simp at this
  obtain ⟨c', x, g1, g2, _, _, g5, _⟩ := redeem_claims W hs hH owns fee id secret hne data t (fun _ h => sane_of hc harg h) ht'
  have hsame := reported_same hr g1
  have hon := C120_redeem_partial W C S hc hs hH owns fee id secret harg hsec (more_of (c := c) rfl hr worth) data t ht'
  rw [hsame.2.2.1] at g5
  exact ⟨t, hp, claim_releases (c := c) hc rfl rfl (claims_same g5 hsame) hon⟩

/-- **C137** (refund). Whoever has the key of the sender takes out what a contract of the chain holds once it is no longer locked. -/
theorem C137_refund_partial (W : SwapWorld) (C : Client) (S : ChainState) (hc : SwapOnChain W C S) (hH : Digest32 W.H)
    (keys : GoodKeys W.toWorld) (owns : OwnsKeys W.toWorld) (readable : Readable W.toWorld) (fee : GoodCurrency W.fee) (clock : ∃ now, W.chainTime = .ok now)
    (co : CoinOutput) (listed : ListedAlone C co) (id : BVal) (hid : Hash.new id = .ok co.id) (hz : co.id.str ≠ List.replicate 64 '0')
    (sender receiver : UnlockHash) (hash : Option Bytes) (since : Int) (holds : co.condition = .atomicSwap sender receiver hash since)
    (fits : HashFits sender.hash ∧ HashFits receiver.hash) (present : ¬ HasAddress W.H .default (receiver.str W.H)) (worth : amount W.fee < amount co.value)
    (over : since ≤ S.time) (mine : Spec.Holds W.toWorld sender) (theirs : W.keys.get? (receiver.str W.H) = none)
    (data : DataArg) (b : Bytes) (hd : payload data = some b) (hdl : b.length ≤ 83) :
    ∃ t, (W.refund id data).posted = [t] ∧ Releases W S co sender t := by
  obtain ⟨now, ht⟩ := clock
  let c : Contract := ⟨co.id, sender, receiver, hash, since, co.value, false⟩
  have hr : Reported W id c := listed_reported hc listed hid hz holds rfl rfl
  have harg : OutputIdArg id := ⟨_, hid, hz⟩
  have hcid : HashFits c.id := by
    obtain ⟨_, _, _, _, h4, h5, _⟩ := reported_on hc harg hr
    show c.id.value.length ≤ 32
    rw [← h4]; exact Nat.le_of_eq h5
  obtain ⟨k, _, hka, hkp, _⟩ := holds_key hH owns mine
  obtain ⟨t, hp⟩ := C90_refund_partial W hH keys owns readable fee id data c now b hr ht
    ⟨hcid, fits.1, fits.2, sane_of hc harg hr, hkp, present⟩ (Nat.le_of_lt worth) (by rw [hc.time now ht]; exact over) mine hd hdl
  have ht' : t ∈ (W.refund id data).posted := by rw [hp]; simp
  obtain ⟨c', _, g1, _, _, _, g5, _⟩ := refund_claims W fee id data t (fun _ h => sane_of hc harg h) ht'
  have hsame := reported_same hr g1
  have hno : ∀ c', Reported W id c' → W.keys.get? (c'.receiver.str W.H) = none := by
    intro c' h'
    rw [(reported_same hr h').2.2.1]
    exact theirs
  have hon := C120_refund_partial W C S hc hH owns fee id harg (more_of (c := c) rfl hr worth) hno data t ht'
  rw [hsame.2.1] at g5
  exact ⟨t, hp, claim_releases (c := c) hc rfl rfl (claims_same g5 hsame) hon⟩

/-- **C137** (once). What is spent is not claimed again: once the chain spends the contract, no wallet redeems or refunds it. -/
theorem C137_once (W : SwapWorld) (C : Client) (S : ChainState) (hc : SwapOnChain W C S) (id : BVal) (h : Hash) (hid : Hash.new id = .ok h)
    (hz : h.str ≠ List.replicate 64 '0') (gone : SpentOn S h) :
    (∀ secret data, (W.redeem id secret data).posted = []) ∧ ∀ data, (W.refund id data).posted = [] := by
  have key : ∀ c, W.fetch id false ≠ .ok c := by
    intro c hf
    obtain ⟨hr, -, -⟩ := fetch_ok hf
    obtain ⟨co, h1, _, _, _, _, hun, _⟩ := reported_on hc ⟨h, hid, hz⟩ hr
    refine hun.2 ?_
    have : co.id = h := by
      rw [hc.output] at h1
      cases hg : C.coinOutputGet id with
      | error e => rw [hg] at h1; cases h1
      | ok x =>
        obtain ⟨o, creation, spend⟩ := x
        rw [hg] at h1
        obtain ⟨e1, _⟩ := Prod.mk.inj (Except.ok.inj h1)
        exact e1 ▸ (C61_coin_partial C id o creation spend h hid hz hg).1
    rw [this]; exact gone
  constructor
  · intro secret data
    refine List.eq_nil_iff_forall_not_mem.mpr fun t ht => ?_
    obtain ⟨c, h1, _⟩ := ofRes_posted ht
    exact key c h1
  · intro data
    refine List.eq_nil_iff_forall_not_mem.mpr fun t ht => ?_
    obtain ⟨c, h1, _⟩ := ofRes_posted ht
    exact key c h1

/-- Taken into the chain, the claim spends the contract: no wallet claims it again. -/
theorem C137_taken (W W' : SwapWorld) (C' : Client) (S S' : ChainState) (co : CoinOutput) (u : UnlockHash) (t : Tx) (released : Releases W S co u t)
    (taken : Accepts S t S') (hc : SwapOnChain W' C' S') (id : BVal) (hid : Hash.new id = .ok co.id) (hz : co.id.str ≠ List.replicate 64 '0') :
    (∃ co', UnspentOn S' co' ∧ Identified co' ∧ pays co' = (amount co.value - amount W.fee, .unlockHash u)) ∧
    (∀ secret data, (W'.redeem id secret data).posted = []) ∧ ∀ data, (W'.refund id data).posted = [] := by
  obtain ⟨r1, r2, -, -⟩ := released
  obtain ⟨e, e1, e2, e3, e4, e5, e6⟩ := taken.entry
  have hmem : e ∈ S'.txs := by rw [e1]; simp
  refine ⟨?_, C137_once W' C' S' hc id co.id hid hz ⟨e, hmem, ?_⟩⟩
  · rw [r2] at e2
    obtain ⟨co', h1, h2⟩ := List.map_eq_singleton_iff.1 e2
    have hin : co' ∈ e.tx.coinOutputs := by rw [h1]; simp
    obtain ⟨k1, _, k3, k4⟩ := e4 co' hin
    refine ⟨co', ⟨⟨e, hmem, hin⟩, ?_⟩, k1, h2⟩
    rintro ⟨x, hx, hs⟩
    rw [e1, List.mem_append, List.mem_singleton] at hx
    rcases hx with hx | rfl
    · exact k3 ⟨x, hx, hs⟩
    · exact hc.lawful.later _ hmem co' hin k1 hs
  · rw [r1] at e3
    cases hi : e.tx.coinInputs with
    | none => rw [hi] at e3; cases e3
    | some l =>
      rw [hi] at e3
      simp only [Option.map_some, Option.some.injEq] at e3
      obtain ⟨ci, h1, h2⟩ := List.map_eq_singleton_iff.1 e3
      exact ⟨l, hi, ci, by rw [h1]; simp, h2⟩

/-! ## A contract that is taken out -/

/-- `contractWorld`, with signatures of 64 bytes. -/
def releaseWorld (keys : List PublicKey) : SwapWorld := { contractWorld ten sevens keys with sign := liveWorld.sign }

/-- The output with the contract, as the explorer describes it. -/
def releaseCoin : CoinOutput := { swapCoin with value := ⟨some ⟨false, 10000000000, -9⟩⟩ }

theorem release_onChain (keys : List PublicKey) : SwapOnChain (releaseWorld keys) (contractExplorer ten sevens) (contractChain ten sevens) := by
  have h := contract_onChain (v := ten) (h := sevens) keys (by decide +kernel) (by decide +kernel)
  exact ⟨h.hash, h.output, h.time, h.lawful, h.truthful⟩

theorem contractExplorer_get (v : Currency) (h : Bytes) : (contractExplorer v h).get ("/explorer/hashes/".toList ++ swapCoin.id.str) =
    .ok (.obj [("hashtype", .str "coinoutputid".toList), ("transactions", .arr [entryContract v h])]) := by
  unfold contractExplorer
  simp only
  exact if_pos trivial

theorem release_listed : ListedAlone (contractExplorer ten sevens) releaseCoin := by
  have key : ((parseTx noIp toyHash (entryContract ten sevens)).map fun t => t.tx.coinOutputs) = .ok [releaseCoin] := by decide +kernel
  cases hp : parseTx noIp toyHash (entryContract ten sevens) with
  | error e => rw [hp] at key; cases key
  | ok t =>
    rw [hp] at key
    have h4 : t.tx.coinOutputs = [releaseCoin] := Except.ok.inj key
    exact ⟨_, entryContract ten sevens, t, contractExplorer_get ten sevens, ⟨rfl, _, rfl, rfl⟩, hp, by rw [h4]; simp⟩

/-- All hypotheses of `C137_redeem_partial` are met. -/
example : ∃ t, ((releaseWorld [key2]).redeem (.bytes (List.replicate 32 9)) (.bytes (List.replicate 32 7)) .none).posted = [t] ∧
    Releases (releaseWorld [key2]) (contractChain ten sevens) releaseCoin (addrOf key2) t := by
  have h2 : ∀ k ∈ [key2], k = key1 ∨ k = key2 := by simp
  refine C137_redeem_partial (releaseWorld [key2]) _ _ (release_onChain [key2]) toyHash_digest toyHash_digest (claimWorld_keys _ h2 1600000000)
    (swapWorld_owns _ h2 1600000000) (claimWorld_readable _ h2 1600000000) ⟨rfl, by decide⟩ ⟨1600000000, rfl⟩ releaseCoin release_listed
    (.bytes (List.replicate 32 9)) (by decide +kernel) (by decide +kernel)
    (addrOf key1) (addrOf key2) (.bytes (List.replicate 32 7)) (List.replicate 32 7) 1500000000 rfl
    ⟨(held_fits [key2] 1600000000).sender, (held_fits [key2] 1600000000).receiver⟩
    (held_fits [key2] 1600000000).present.1 (by decide +kernel) ⟨rfl, .inr rfl⟩ (by decide) ⟨_, rfl, (addrOf key2).str toyHash, by simp, ?_⟩ .none [] rfl (by decide)
  show UnlockHash.fromJson toyHash _ = _
  decide +kernel

/-- All hypotheses of `C137_refund_partial` are met. -/
theorem release_refund : ∃ t, ((releaseWorld [key1]).refund (.bytes (List.replicate 32 9)) .none).posted = [t] ∧
    Releases (releaseWorld [key1]) (contractChain ten sevens) releaseCoin (addrOf key1) t := by
  have h1 : ∀ k ∈ [key1], k = key1 ∨ k = key2 := by simp
  refine C137_refund_partial (releaseWorld [key1]) _ _ (release_onChain [key1]) toyHash_digest (claimWorld_keys _ h1 1600000000)
    (swapWorld_owns _ h1 1600000000) (claimWorld_readable _ h1 1600000000) ⟨rfl, by decide⟩ ⟨1600000000, rfl⟩ releaseCoin release_listed
    (.bytes (List.replicate 32 9)) (by decide +kernel) (by decide +kernel)
    (addrOf key1) (addrOf key2) _ 1500000000 rfl ⟨(held_fits [key1] 1600000000).sender, (held_fits [key1] 1600000000).receiver⟩
    (held_fits [key1] 1600000000).present.2 (by decide +kernel) (by decide) ⟨_, rfl, (addrOf key1).str toyHash, by simp, ?_⟩ (by decide +kernel) .none [] rfl (by decide)
  show UnlockHash.fromJson toyHash _ = _
  decide +kernel

/-- The chain can take that refund. -/
example : ∃ t S', t ∈ ((releaseWorld [key1]).refund (.bytes (List.replicate 32 9)) .none).posted ∧ Accepts (contractChain ten sevens) t S' := by
  obtain ⟨t, h1, h2⟩ := release_refund
  obtain ⟨_, _, _, h3⟩ := h2
  have hf : freshCheck (contractChain ten sevens) [⟨List.replicate 32 77⟩] = true := by decide +kernel
  obtain ⟨g1, g2, g3⟩ := fresh_of_check hf _ (List.mem_singleton.2 rfl)
  obtain ⟨S', hS⟩ := h3 _ g1 g2 g3
  exact ⟨t, S', by rw [h1]; simp, hS⟩

/-! ## A contract that was taken out -/

/-- The entry of the transaction with which the receiver takes out what the contract holds. -/
def entryClaimed : Json :=
  entryOf { coinInputs := [⟨swapCoin.id, .swap key2 (some ⟨List.replicate 64 5, false⟩) (some (List.replicate 32 7)), none⟩],
            coinOutputs := [⟨⟨some ⟨false, 99, -1⟩⟩, .unlockHash (addrOf key2), ⟨[]⟩⟩], minerFees := [⟨some ⟨false, 1, -1⟩⟩] }
    ⟨List.replicate 32 32⟩ [releaseCoin] [⟨List.replicate 32 33⟩] 6 false

/-- An explorer that lists two transactions for the output, the chain they make up, and a wallet that asks this explorer. -/
def pairExplorer (a b : Json) : Client :=
  ⟨noIp, toyHash, fun p => if p = "/explorer/hashes/".toList ++ swapCoin.id.str then
    .ok (.obj [("hashtype", .str "coinoutputid".toList), ("transactions", .arr [a, b])]) else .error .explorerNoContent⟩
@[inherit_doc pairExplorer] def pairChain (a b : Json) : ChainState :=
  ⟨[a, b].filterMap fun e => match parseTx noIp toyHash e with | .ok t => some t | .error _ => none, 100, 1600000000⟩
@[inherit_doc pairExplorer] def pairWorld (a b : Json) (keys : List PublicKey) : SwapWorld :=
  { releaseWorld keys with output := fun id => ((pairExplorer a b).coinOutputGet id).map fun x => (x.1, x.2.2.isSome) }

theorem pair_onChain (a b : Json) (keys : List PublicKey) (hl : lawfulCheck (pairChain a b) = true) :
    SwapOnChain (pairWorld a b keys) (pairExplorer a b) (pairChain a b) := by
  refine ⟨rfl, fun _ => rfl, ?_, lawful_of_check hl, ?_⟩
  · intro now e; cases e; rfl
  · rintro id resp l hg ⟨_, ts, h1, h2⟩
    unfold pairExplorer at hg
    simp only at hg
    split at hg
    · cases hg
      have : ts = .arr [a, b] := (Except.ok.inj h1).symm
      subst this
      have : l = [a, b] := (Except.ok.inj h2).symm
      subst this
      refine ⟨?_, ?_⟩
      · intro e he t ht
        have ht' : parseTx noIp toyHash e = .ok t := ht
        exact List.mem_filterMap.2 ⟨e, he, by rw [ht']⟩
      · intro t ht _
        obtain ⟨e, he, h⟩ := List.mem_filterMap.1 ht
        refine ⟨e, he, ?_⟩
        show parseTx noIp toyHash e = .ok t
        split at h
        · rename_i x hx; cases h; exact hx
        · cases h
    · cases hg

/-- The hypotheses of `C137_once` are met. -/
example : SwapOnChain (pairWorld (entryContract ten sevens) entryClaimed [key1]) (pairExplorer (entryContract ten sevens) entryClaimed) (pairChain (entryContract ten sevens) entryClaimed) ∧ Hash.new (.bytes (List.replicate 32 9)) = .ok swapCoin.id ∧ SpentOn (pairChain (entryContract ten sevens) entryClaimed) swapCoin.id ∧
    ((pairWorld (entryContract ten sevens) entryClaimed [key1]).output (.bytes (List.replicate 32 9))).map (fun x => (x.1, x.2)) = .ok (releaseCoin, true) := by
  refine ⟨pair_onChain _ _ _ (by decide +kernel), by decide +kernel, ?_, by decide +kernel⟩
  have h : ((pairChain (entryContract ten sevens) entryClaimed).txs.any fun t => (t.tx.coinInputs.getD []).any fun ci => decide (ci.parentId = swapCoin.id)) = true := by decide +kernel
  obtain ⟨t, ht, h⟩ := List.any_eq_true.1 h
  obtain ⟨ci, hci, h⟩ := List.any_eq_true.1 h
  refine ⟨t, ht, ?_⟩
  cases hi : t.tx.coinInputs with
  | none => rw [hi] at hci; cases hci
  | some l => rw [hi] at hci; exact ⟨l, hi, ci, hci, of_decide_eq_true h⟩

end TF.Props
