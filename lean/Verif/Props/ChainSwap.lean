import Verif.Props.Chain
import Verif.Props.Swap2
/-! # C120 for atomic swaps -/
namespace TF.Props
open TF TF.Spec

/-- **C120** (what holds) for new atomic swap contracts: whatever `initiate` and `participate` submit is valid on the chain. -/
theorem C120_contract_partial (W : SwapWorld) (C : Client) (own : List UnlockHash) (S : ChainState) (ho : OnChain W.toWorld C own S) (hm : NoMinting C own)
    (hnw : NoWithdrawals C own) (hfee : GoodCurrency W.fee) (hpos : 0 < amount W.fee) (secret : Bytes) (hash : BVal) (r : Recipient) (amt : CVal)
    (legal : ∀ c, amt = .cur c → GoodCurrency c) (time : LockVal) (src : Source) (refund : Recipient) (data : DataArg) (submit : Bool) (t : Tx)
    (ht : t ∈ (W.initiate secret r amt time src refund data submit).posted ∨ t ∈ (W.participate r amt hash time src refund data submit).posted) :
    ValidOn W.toWorld S t := by
  have hsig : FullySigned W.toWorld t := by
    obtain ⟨h1, h2, h3, h4⟩ := C88_submits W secret hash r amt time src refund data
    cases submit with
    | false =>
      rw [h3, h4] at ht
      simp at ht
    | true => exact ht.elim (h1.signed t) (h2.signed t)
  obtain ⟨h, hp⟩ : ∃ h, Produces (W.createContract r amt time src refund data h submit) t := by
    rcases ht with ht | ht
    · obtain ⟨h, _, ht⟩ := ofRes_posted ht
      exact ⟨h, .inl ht⟩
    · obtain ⟨h, _, ht⟩ := ofRes_posted ht
      exact ⟨h, .inl ht⟩
  obtain ⟨a, w, t0, t1, h1, hw, h3, h4, h5⟩ := createContract_produces hp
  obtain ⟨_, hnd, hs⟩ := offered_all ho hm hnw hw
  obtain ⟨g1, g2, g3⟩ := swapAmount_ok legal hfee h1
  obtain ⟨s, u, T, k1, k2, k3, k4⟩ := contractTx_ok hs hfee g2 h3
  obtain ⟨a', s', u', T', e1, e2, _, _, _, hpay⟩ := createContract_spec hw hs hfee legal hp
  refine valid_of ho hm hnw hpos hw (paid_fits hpay ?_) (neat_bare ((fillIds_bare h5).trans (signNew_bare h4)) (payment_neat hnd k4)) hsig
  intro p hp
  rw [List.mem_singleton] at hp
  rw [hp]
  show 0 < amount a'
  omega

/-- The wallet of `richWorld` can initiate a swap. -/
def richSwap : SwapWorld where
  toWorld := richWorld
  sha := toyHash

example : OnChain richSwap.toWorld (explorerOf richList) [addrOf key1] richChain ∧
    ((richSwap.initiate (List.replicate 32 7) (.uh (addrOf key2)) (.int 3) (.int 1600000000) .none .none .none true).posted.map fun (t : Tx) =>
      (t.coinInputs.getD []).map CoinInput.parentId) = [[⟨List.replicate 32 21⟩]] := ⟨rich_onChain, by decide +kernel⟩

/-- What an answer without a spending transaction means. -/
theorem unspent_entries {L : IpLib} {H : Bytes → Bytes} {kind : OutputKind} {resp : Json} {c : ChainTx} (h : readOutputTxs L H kind resp = .ok (c, none))
    {l : List Json} {type : String} (hl : Entries resp type l) : ∃ e, l = [e] ∧ parseTx L H e = .ok c := by
  unfold readOutputTxs at h
  obtain ⟨ht, h1, h⟩ := bind_ok h
  obtain ⟨_, h2, h⟩ := bind_ok h
  obtain ⟨ts, h3, h⟩ := bind_ok h
  obtain ⟨l', h4, h⟩ := bind_ok h
  obtain ⟨⟨ce, se⟩, h5, h⟩ := bind_ok h
  obtain ⟨c', h6, h⟩ := bind_ok h
  obtain ⟨s', h7, h⟩ := bind_ok h
  obtain ⟨e1, e2⟩ := Prod.mk.inj (Except.ok.inj h)
  subst e1; subst e2
  obtain ⟨_, ts', k1, k2⟩ := hl
  rw [h3] at k1; cases k1
  rw [h4] at k2; cases k2
  unfold splitTransactions at h5
  split at h5
  · cases h5; exact ⟨_, rfl, h6⟩
  · obtain ⟨hb, _, h5⟩ := bind_ok h5
    obtain ⟨ha, _, h5⟩ := bind_ok h5
    obtain ⟨g, _, h5⟩ := bind_ok h5
    split at h5 <;> cases h5 <;> (obtain ⟨y, hy, h7⟩ := bind_ok h7; cases h7)
  · cases h5

/-- A contract that is reported as unspent is one of the chain and unspent. -/
theorem reported_on {W : SwapWorld} {C : Client} {S : ChainState} (hc : SwapOnChain W C S) {id : BVal} (hid : OutputIdArg id) {c : Contract}
    (hr : Reported W id c) : ∃ co, W.output id = .ok (co, false) ∧ co.condition = .atomicSwap c.sender c.receiver c.secretHash c.lockTime ∧ co.value = c.amount ∧
      co.id = c.id ∧ Identified co ∧ UnspentOn S co ∧ SaneAmount co.value := by
  obtain ⟨h, hh, hz⟩ := hid
  obtain ⟨co, h1, h2, h3, h4⟩ := hr
  refine ⟨co, h1, h2, h3, h4, ?_⟩
  rw [hc.output] at h1
  cases hg : C.coinOutputGet id with
  | error e => rw [hg] at h1; cases h1
  | ok x =>
    obtain ⟨o, creation, spend⟩ := x
    rw [hg] at h1
    obtain ⟨e1, e2⟩ := Prod.mk.inj (Except.ok.inj h1)
    simp only at e1 e2
    subst e1
    cases spend with
    | some _ => cases e2
    | none =>
      obtain ⟨k1, k2, resp, l, e, k, k3, k4, k5, k6, k7, -⟩ := C61_coin_partial C id o creation none h hh hz hg
      have hread : readOutputTxs C.L C.H .coin resp = .ok (creation, none) := by
        unfold Client.coinOutputGet at hg
        obtain ⟨i, hi, hg⟩ := bind_ok hg
        rw [hh] at hi; cases hi
        obtain ⟨resp', hr', hg⟩ := bind_ok hg
        have : resp' = resp := Except.ok.inj (hr'.symm.trans k3)
        subst this
        obtain ⟨⟨c1, s1⟩, g1, hg⟩ := bind_ok (keyErrorInvalid_ok hg)
        obtain ⟨o', _, hg⟩ := bind_ok hg
        cases hg
        exact g1
      obtain ⟨e', rfl, k8⟩ := unspent_entries hread k4
      obtain ⟨m1, m2⟩ := hc.truthful h resp _ k3 k4
      have hcr : creation ∈ S.txs := m1 e' (by simp) _ k8
      have hident : Identified o := by
        refine hc.lawful.full creation hcr ?_ o k2
        exact fun hw => C61_withdrawal_false C id h hh hz o creation none hw hg
      have hun : UnspentOn S o := by
        refine ⟨⟨creation, hcr, k2⟩, ?_⟩
        rintro ⟨t, ht, hsp⟩
        rw [k1] at hsp
        obtain ⟨e2, he2, hp2⟩ := m2 t ht hsp
        rw [List.mem_singleton] at he2
        subst he2
        rw [k8] at hp2; cases hp2
        exact hc.lawful.later creation hcr o k2 hident (by rw [k1]; exact hsp)
      refine ⟨hident, hun, hc.lawful.amounts o hun.1, ?_⟩
      have := hc.lawful.supply [o] (by simp) (by intro co hco; rw [List.mem_singleton] at hco; rw [hco]; exact ⟨hun, hident⟩)
      simpa [total] using this

theorem payload_short {W : SwapWorld} {c : Contract} {asSender : Bool} {secret : Option Bytes} {data : DataArg} {t0 t : Tx}
    (h0 : W.claim c asSender secret data = .ok t0) (ht : t ∈ (W.claimSubmit t0).posted) : ∀ v, t = .v1 v → v.data.length ≤ 83 := by
  refine (neat_bare (signNew_bare (claimSubmit_posted ht).1) ?_).2
  simp only [SwapWorld.claim, Currency.set, bind, Except.bind] at h0
  split at h0
  · cases h0
  · rename_i d hd
    split at h0
    · cases h0
    · cases h0
      refine ⟨?_, ?_⟩
      · intro l hl; cases hl; simp
      · intro v e; cases e; exact setData_short hd

/-- A submitted claim whose signer and secret are right is valid. -/
theorem claim_on {W : SwapWorld} {C : Client} {S : ChainState} (hc : SwapOnChain W C S) {id : BVal} (hid : OutputIdArg id)
    (hmore : ∀ co, W.output id = .ok (co, false) → amount W.fee < amount co.value) {c : Contract} (hr : Reported W id c) {dest : UnlockHash} {secret : Option Bytes}
    {data : DataArg} {t : Tx} (hcl : Claims W.toWorld c dest secret data t) {k : PublicKey} (hsig : SignedWith W.toWorld t k)
    (hdata : ∀ v, t = .v1 v → v.data.length ≤ 83)
    (hwho : (∃ b, secret = some b ∧ b.length = 32 ∧ c.secretHash = some (W.sha b) ∧ HasAddress W.H k (c.receiver.str W.H)) ∨
      (secret = none ∧ c.lockTime ≤ S.time ∧ HasAddress W.H k (c.sender.str W.H))) : ClaimOn W S t := by
  obtain ⟨co, h1, h2, h3, h4, h5, h6, h7⟩ := reported_on hc hid hr
  obtain ⟨ci, k', s', i1, i2, i3, co', i4, i5, i6⟩ := hcl.input
  obtain ⟨out, o1, o2, o3⟩ := hcl.output
  obtain ⟨ci', sig, sec', j1, j2, j3⟩ := hsig
  rw [i1] at j1; cases j1
  rw [i3] at j2; cases j2
  have hm := hmore co h1
  rw [h3] at hm
  refine ⟨⟨ci, co, c.sender, c.receiver, c.secretHash, c.lockTime, k, sig, secret, i1, by rw [i2, h4], h5, h6, h2, i3, j3, hwho, ?_⟩, hcl.fee, ?_, hdata⟩
  · rw [h3, o1]
    simp [total]
    exact o3.symm
  · rw [o1]
    intro co hco
    rw [List.mem_singleton] at hco
    subst hco
    omega

/-- **C120** (what holds) for `redeem`: with a secret of 32 bytes, and for a contract that is worth more than the miner fee, whatever it submits claims
the contract validly on the chain. -/
theorem C120_redeem_partial (W : SwapWorld) (C : Client) (S : ChainState) (hc : SwapOnChain W C S) (hs : Digest32 W.sha) (hH : Digest32 W.H)
    (hk : OwnsKeys W.toWorld) (hf : GoodCurrency W.fee) (id secret : BVal) (hid : OutputIdArg id) (hsec : ∀ b, Gives secret b → b.length = 32)
    (hmore : ∀ co, W.output id = .ok (co, false) → amount W.fee < amount co.value) (data : DataArg) (t : Tx) (ht : t ∈ (W.redeem id secret data).posted) :
    ClaimOn W S t := by
  have hne : secret ≠ .none := by
    rintro rfl
    have := hsec [] rfl
    simp at this
  have hsane : ∀ c, Reported W id c → SaneAmount c.amount := by
    intro c hr
    obtain ⟨co, _, _, h3, _, _, _, h7⟩ := reported_on hc hid hr
    rw [← h3]; exact h7
  obtain ⟨c, b, hr, hb, hcb, _, hcl, k, hka, hsig⟩ := redeem_claims W hs hH hk hf id secret hne data t hsane ht
  refine claim_on hc hid hmore hr hcl hsig ?_ (.inl ⟨b, rfl, hsec b hb, hcb, hka⟩)
  obtain ⟨_, _, ht⟩ := ofRes_posted ht
  obtain ⟨_, _, ht⟩ := ofRes_posted ht
  obtain ⟨_, _, ht⟩ := ofRes_posted ht
  obtain ⟨t0, h4, ht⟩ := ofRes_posted ht
  exact payload_short h4 ht

/-- **C120** (what holds) for `refund`: for a contract that is worth more than the miner fee and whose receiver is not the wallet itself, whatever it
submits claims the contract validly on the chain. -/
theorem C120_refund_partial (W : SwapWorld) (C : Client) (S : ChainState) (hc : SwapOnChain W C S) (hH : Digest32 W.H)
    (hk : OwnsKeys W.toWorld) (hf : GoodCurrency W.fee) (id : BVal) (hid : OutputIdArg id)
    (hmore : ∀ co, W.output id = .ok (co, false) → amount W.fee < amount co.value)
    (hno : ∀ c, Reported W id c → W.keys.get? (c.receiver.str W.H) = none) (data : DataArg) (t : Tx) (ht : t ∈ (W.refund id data).posted) :
    ClaimOn W S t := by
  obtain ⟨c, h1, ht⟩ := ofRes_posted ht
  obtain ⟨_, h2, ht⟩ := ofRes_posted ht
  obtain ⟨t0, h4, ht⟩ := ofRes_posted ht
  obtain ⟨hr, -, -⟩ := fetch_ok h1
  obtain ⟨⟨now, hn, hle⟩, hold⟩ := mayRefund_ok h2
  obtain ⟨co, _, _, h3, _, _, _, h7⟩ := reported_on hc hid hr
  obtain ⟨hcl, k, hsig, -, -, hse⟩ := claim_posted (by rw [← h3]; exact h7) hf h4 ht
  obtain ⟨k', hk1, hk2, hk3, -⟩ := holds_key hH hk hold
  obtain ⟨rfl, -⟩ := hse k' hk1 hk3 (hno c hr)
  exact claim_on hc hid hmore hr hcl hsig (payload_short h4 ht) (.inr ⟨rfl, by rw [← hc.time now hn]; exact hle, hk2⟩)

/-! ## A chain with a contract -/

/-- The entry of a transaction that creates the contract of `swapCoin`, with the given amount and secret hash. -/
def entryContract (v : Currency) (h : Bytes) : Json :=
  entryOf { coinOutputs := [⟨v, .atomicSwap (addrOf key1) (addrOf key2) (some h) 1500000000, ⟨[]⟩⟩], minerFees := [⟨some ⟨false, 1, 0⟩⟩] } ⟨List.replicate 32 31⟩ []
    [swapCoin.id] 5 false

/-- An explorer that knows this transaction only. -/
def contractExplorer (v : Currency) (h : Bytes) : Client :=
  ⟨noIp, toyHash, fun p => if p = "/explorer/hashes/".toList ++ swapCoin.id.str then
    .ok (.obj [("hashtype", .str "coinoutputid".toList), ("transactions", .arr [entryContract v h])]) else .error .explorerNoContent⟩

/-- The chain it describes. -/
def contractChain (v : Currency) (h : Bytes) : ChainState :=
  ⟨(match parseTx noIp toyHash (entryContract v h) with | .ok t => [t] | .error _ => []), 100, 1600000000⟩

/-- A wallet that asks this explorer. -/
def contractWorld (v : Currency) (h : Bytes) (keys : List PublicKey) : SwapWorld :=
  { swapWorld keys 1600000000 with output := fun id => ((contractExplorer v h).coinOutputGet id).map fun x => (x.1, x.2.2.isSome) }

theorem contract_onChain {v : Currency} {h : Bytes} (keys : List PublicKey) (hl : lawfulCheck (contractChain v h) = true)
    (hn : ((contractChain v h).txs.all fun t => (t.tx.coinInputs.getD []).isEmpty) = true) :
    SwapOnChain (contractWorld v h keys) (contractExplorer v h) (contractChain v h) := by
  refine ⟨rfl, fun _ => rfl, ?_, lawful_of_check hl, ?_⟩
  · intro now e; cases e; rfl
  · rintro id resp l hg ⟨_, ts, h1, h2⟩
    unfold contractExplorer at hg
    simp only at hg
    split at hg
    · cases hg
      have : ts = .arr [entryContract v h] := (Except.ok.inj h1).symm
      subst this
      have : l = [entryContract v h] := (Except.ok.inj h2).symm
      subst this
      refine ⟨?_, ?_⟩
      · intro e he t ht
        rw [List.mem_singleton] at he
        subst he
        have ht' : parseTx noIp toyHash (entryContract v h) = .ok t := ht
        simp [contractChain, ht']
      · rintro t ht ⟨ins, hi, ci, hci, _⟩
        have := List.all_eq_true.1 hn t ht
        rw [hi] at this
        simp only [Option.getD_some, List.isEmpty_iff] at this
        rw [this] at hci
        cases hci
    · cases hg

/-- Ten TFT, and the digest of a secret. -/
def ten : Currency := ⟨some ⟨false, 10, 0⟩⟩
@[inherit_doc ten] def sevens : Bytes := toyHash (List.replicate 32 7)

theorem swapId_arg : OutputIdArg (.bytes (List.replicate 32 9)) := ⟨⟨List.replicate 32 9⟩, by decide +kernel, by decide +kernel⟩

/-- The hypotheses of `C120_redeem_partial` and `C120_refund_partial` are met, and both submit a transaction. -/
example : SwapOnChain (contractWorld ten sevens [key2]) (contractExplorer ten sevens) (contractChain ten sevens) ∧ OwnsKeys (contractWorld ten sevens [key2]).toWorld ∧
    OwnsKeys (contractWorld ten sevens [key1]).toWorld ∧
    ((contractWorld ten sevens [key2]).redeem (.bytes (List.replicate 32 9)) (.bytes (List.replicate 32 7)) .none).posted.length = 1 ∧
    ((contractWorld ten sevens [key1]).refund (.bytes (List.replicate 32 9)) .none).posted.length = 1 ∧
    (((contractWorld ten sevens [key1]).output (.bytes (List.replicate 32 9))).map fun x => (amount x.1.value, x.2)) = .ok (10 * 10 ^ 9, false) ∧
    (contractWorld ten sevens [key1]).keys.get? ((addrOf key2).str toyHash) = none :=
  ⟨contract_onChain _ (by decide +kernel) (by decide +kernel), swapWorld_owns [key2] (by simp) 1600000000, swapWorld_owns [key1] (by simp) 1600000000,
    by decide +kernel, by decide +kernel, by decide +kernel, by decide +kernel⟩

/-- **C120** is false for a contract between two addresses of the wallet: the refund is signed for the receiver. -/
theorem C120_refund_false : ∃ (W : SwapWorld) (C : Client) (S : ChainState) (id : BVal) (t : Tx), SwapOnChain W C S ∧ OwnsKeys W.toWorld ∧ OutputIdArg id ∧
    (∀ co, W.output id = .ok (co, false) → amount W.fee < amount co.value) ∧ (W.refund id .none).posted = [t] ∧ ¬ ClaimOn W S t := by
  have h1 : ((contractWorld ten sevens [key1, key2]).refund (.bytes (List.replicate 32 9)) .none).posted.map
      (fun t => (t.coinInputs.getD []).map fun ci => match ci.fulfillment with | .swap k _ s => some (k, s) | _ => none) = [[some (key2, none)]] := by decide +kernel
  have h2 : ((contractWorld ten sevens [key1, key2]).output (.bytes (List.replicate 32 9))).map (fun x => decide (amount (contractWorld ten sevens [key1, key2]).fee < amount x.1.value)) =
    .ok true := by decide +kernel
  have h3 : ((contractChain ten sevens).txs.all fun t => t.tx.coinOutputs.all fun co =>
    decide (co.condition = .atomicSwap (addrOf key1) (addrOf key2) (some sevens) 1500000000)) = true := by decide +kernel
  obtain ⟨t, ht, e⟩ := List.map_eq_singleton_iff.1 h1
  refine ⟨contractWorld ten sevens [key1, key2], contractExplorer ten sevens, contractChain ten sevens, .bytes (List.replicate 32 9), t,
    contract_onChain _ (by decide +kernel) (by decide +kernel), swapWorld_owns [key1, key2] (by simp) 1600000000, swapId_arg, ?_, ht, ?_⟩
  · intro co hco
    rw [hco] at h2
    exact of_decide_eq_true (Except.ok.inj h2)
  · rintro ⟨⟨ci, co, s, r, hash, T, k, sig, secret, k1, _, _, ⟨⟨tc, k2, k3⟩, _⟩, k4, k5, _, k6, _⟩, _⟩
    rw [k1] at e
    simp only [Option.getD_some, List.map_cons, k5, List.map_nil, List.cons.injEq, Option.some.injEq, Prod.mk.injEq, and_true] at e
    obtain ⟨rfl, rfl⟩ := e
    have := of_decide_eq_true (List.all_eq_true.1 (List.all_eq_true.1 h3 tc k2) co k3)
    rw [k4] at this
    cases this
    rcases k6 with ⟨b, k6, _⟩ | ⟨_, _, u, hu, he⟩
    · cases k6
    · have e2 : key2.unlockhash toyHash = .ok (addrOf key2) := by decide +kernel
      rw [show (contractWorld ten sevens [key1, key2]).H = toyHash from rfl, e2] at hu
      cases hu
      revert he
      show (addrOf key2).str toyHash = (addrOf key1).str toyHash → False
      decide +kernel

/-- **C120** is false for a contract that is worth the miner fee: the output of the claim is worth nothing. -/
theorem C120_worthless_false : ∃ (W : SwapWorld) (C : Client) (S : ChainState) (id secret : BVal) (t : Tx), SwapOnChain W C S ∧ OwnsKeys W.toWorld ∧ OutputIdArg id ∧
    (∀ b, Gives secret b → b.length = 32) ∧ (W.redeem id secret .none).posted = [t] ∧ ¬ ClaimOn W S t := by
  have h1 : ((contractWorld ⟨some ⟨false, 1, -1⟩⟩ sevens [key2]).redeem (.bytes (List.replicate 32 9)) (.bytes (List.replicate 32 7)) .none).posted.map
      (fun t => t.coinOutputs.map fun co => amount co.value) = [[0]] := by decide +kernel
  obtain ⟨t, ht, e⟩ := List.map_eq_singleton_iff.1 h1
  refine ⟨contractWorld ⟨some ⟨false, 1, -1⟩⟩ sevens [key2], contractExplorer ⟨some ⟨false, 1, -1⟩⟩ sevens, contractChain ⟨some ⟨false, 1, -1⟩⟩ sevens,
    .bytes (List.replicate 32 9), .bytes (List.replicate 32 7), t,
    contract_onChain _ (by decide +kernel) (by decide +kernel), swapWorld_owns [key2] (by simp) 1600000000, swapId_arg, ?_, ht, ?_⟩
  · rintro b ⟨rfl, _⟩; rfl
  · intro hc
    obtain ⟨co, hco, hv⟩ := List.map_eq_singleton_iff.1 e
    have := hc.outputs co (by rw [hco]; simp)
    omega

/-- **C120** is false for the empty secret: it is accepted and submitted although secrets have 32 bytes. -/
theorem C120_empty_secret_false : ∃ (W : SwapWorld) (C : Client) (S : ChainState) (id secret : BVal) (t : Tx), SwapOnChain W C S ∧ OwnsKeys W.toWorld ∧ OutputIdArg id ∧
    (∀ co, W.output id = .ok (co, false) → amount W.fee < amount co.value) ∧ (W.redeem id secret .none).posted = [t] ∧ ¬ ClaimOn W S t := by
  have h1 : ((contractWorld ten (toyHash []) [key2]).redeem (.bytes (List.replicate 32 9)) (.str []) .none).posted.map
      (fun t => (t.coinInputs.getD []).map fun ci => match ci.fulfillment with | .swap _ _ s => s | _ => none) = [[some []]] := by decide +kernel
  have h2 : ((contractWorld ten (toyHash []) [key2]).output (.bytes (List.replicate 32 9))).map (fun x => decide (amount (contractWorld ten (toyHash []) [key2]).fee < amount x.1.value)) =
    .ok true := by decide +kernel
  obtain ⟨t, ht, e⟩ := List.map_eq_singleton_iff.1 h1
  refine ⟨contractWorld ten (toyHash []) [key2], contractExplorer ten (toyHash []), contractChain ten (toyHash []), .bytes (List.replicate 32 9), .str [], t,
    contract_onChain _ (by decide +kernel) (by decide +kernel), swapWorld_owns [key2] (by simp) 1600000000, swapId_arg, ?_, ht, ?_⟩
  · intro co hco
    rw [hco] at h2
    exact of_decide_eq_true (Except.ok.inj h2)
  · rintro ⟨⟨ci, co, s, r, hash, T, k, sig, secret, k1, _, _, _, _, k5, _, k6, _⟩, _⟩
    rw [k1] at e
    simp only [Option.getD_some, List.map_cons, k5, List.map_nil, List.cons.injEq, and_true] at e
    subst e
    rcases k6 with ⟨b, k6, k7, _⟩ | ⟨k6, _⟩
    · cases k6; simp at k7
    · cases k6

end TF.Props
