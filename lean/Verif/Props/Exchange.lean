import Verif.Props.Release
import Verif.Spec.Exchange
/-! # C138: swaps from beginning to end -/
namespace TF.Props
open TF TF.Spec

/-- A contract is redeemed by a claimant. -/
theorem claimant_redeems {W W' : SwapWorld} {C' : Client} {S : ChainState} (hc : Claimant W W' C' S) {co : CoinOutput} (listed : ListedAlone C' co) {id : BVal}
    (hid : Hash.new id = .ok co.id) (hz : co.id.str ≠ List.replicate 64 '0') {a b : UnlockHash} {s : Bytes} {since : Int}
    (holds : co.condition = .atomicSwap a b (some (W.sha s)) since) (ga : GoodParty W.H a) (gb : GoodParty W.H b) (worth : amount W.fee < amount co.value)
    {secret : BVal} (known : Gives secret s) (len : s.length = 32) (mine : Spec.Holds W'.toWorld b) {data : DataArg} {d : Bytes} (hd : payload data = some d) (hdl : d.length ≤ 83) :
    ∃ t, (W'.redeem id secret data).posted = [t] ∧ Releases W' S co b t := by
  obtain ⟨e1, e2, e3⟩ := hc.same
  refine C137_redeem_partial W' C' S hc.chain hc.digests.1 hc.digests.2 hc.keys.1 hc.keys.2.1 hc.keys.2.2 hc.fee hc.clock co listed id hid hz a b secret s since ?_
    ⟨ga.1, gb.1⟩ ?_ ?_ known len mine data d hd hdl
  · rw [e1]; exact holds
  · rw [e2]; exact ga.2
  · rw [e3]; exact worth

/-- A contract is refunded by a claimant. -/
theorem claimant_refunds {W W' : SwapWorld} {C' : Client} {S : ChainState} (hc : Claimant W W' C' S) {co : CoinOutput} (listed : ListedAlone C' co) {id : BVal}
    (hid : Hash.new id = .ok co.id) (hz : co.id.str ≠ List.replicate 64 '0') {a b : UnlockHash} {h : Option Bytes} {since : Int}
    (holds : co.condition = .atomicSwap a b h since) (ga : GoodParty W.H a) (gb : GoodParty W.H b) (worth : amount W.fee < amount co.value)
    (over : since ≤ S.time) (mine : Spec.Holds W'.toWorld a) (theirs : W'.keys.get? (b.str W.H) = none) {data : DataArg} {d : Bytes} (hd : payload data = some d)
    (hdl : d.length ≤ 83) : ∃ t, (W'.refund id data).posted = [t] ∧ Releases W' S co a t := by
  obtain ⟨e1, e2, e3⟩ := hc.same
  refine C137_refund_partial W' C' S hc.chain hc.digests.2 hc.keys.1 hc.keys.2.1 hc.keys.2.2 hc.fee hc.clock co listed id hid hz a b h since holds
    ⟨ga.1, gb.1⟩ ?_ ?_ over mine ?_ data d hd hdl
  · rw [e2]; exact gb.2
  · rw [e3]; exact worth
  · rw [e2]; exact theirs

/-- What the chain holds after it took the transaction of a new contract. -/
theorem contract_taken {W : World} {S S' : ChainState} (hl : LawfulChain S) {t : Tx} (hv : ValidOn W S t) (taken : Accepts S t S') {n : Nat} {k : Condition}
    {rest : List (Nat × Condition)} (hout : t.coinOutputs.map pays = (n, k) :: rest) :
    ∃ co, FirstOutput S' co ∧ UnspentOn S' co ∧ Identified co ∧ amount co.value = n ∧ co.condition = k := by
  have hl' : LawfulChain S' := lawful_taken hl hv taken
  obtain ⟨e, e1, e2, e3, e4, e5, e6⟩ := taken.entry
  rw [hout] at e2
  obtain ⟨co, l, h1, h2, h3⟩ := List.map_eq_cons_iff.1 e2
  have hm : e ∈ S'.txs := by rw [e1]; simp
  have hco : co ∈ e.tx.coinOutputs := by rw [h1]; simp
  obtain ⟨k1, _, k3, k4⟩ := e4 co hco
  simp only [pays, Prod.mk.injEq] at h2
  refine ⟨co, ⟨e, l, by rw [e1]; simp, h1⟩, ⟨⟨e, hm, hco⟩, ?_⟩, k1, h2.1, h2.2⟩
  rintro ⟨x, hx, hs⟩
  rw [e1, List.mem_append, List.mem_singleton] at hx
  rcases hx with hx | rfl
  · exact k3 ⟨x, hx, hs⟩
  · exact hl'.later _ hm co hco k1 hs
where
  lawful_taken {W : World} {S S' : ChainState} (hl : LawfulChain S) {t : Tx} (hv : ValidOn W S t) (taken : Accepts S t S') : LawfulChain S' :=
    (valid_keeps hl hv taken).1

theorem network_same {H : Bytes → Bytes} {t : Tx} {i : Nat} {a b : Hash} (ha : NetworkOutputId H t i a) (hb : NetworkOutputId H t i b) : a = b := by
  obtain ⟨x, h1, h2⟩ := ha
  obtain ⟨y, h3, h4⟩ := hb
  rw [h1] at h3
  cases h3
  obtain ⟨a⟩ := a
  obtain ⟨b⟩ := b
  exact congrArg Hash.mk (h2.trans h4.symm)

theorem contract_held {W : SwapWorld} {C : Client} {own : List UnlockHash} {S S' : ChainState} (hi : Informed W.toWorld C own S) {r : Recipient} {amt : CVal} {h : Bytes}
    {time : LockVal} {src : Source} {refund : Recipient} {data : DataArg} {w : Wallets} {c : Contract} {t : Tx}
    (hcon : IsContract W.toWorld w r amt h time src refund data t) (hd : Describes c t) (hid : NetworkOutputId W.H t 0 c.id) (hv : ValidOn W.toWorld S t)
    (taken : Accepts S t S') (named : ∀ co, FirstOutput S' co → NetworkOutputId W.H t 0 co.id) : ∃ co, Held W S' r amt h time c co := by
  obtain ⟨a, s, u, T, h1, h2, h3, h4, h5, hpay⟩ := hcon
  obtain ⟨rest, hout, _⟩ := hpay.outputs
  obtain ⟨o, l, d1, d2, d3, d4⟩ := hd
  have hout' : t.coinOutputs.map pays = (amount a, .atomicSwap s u (some h) T) :: rest := hout
  obtain ⟨co, g1, g2, g3, g4, g5⟩ := contract_taken hi.chain.lawful hv taken hout'
  rw [d1] at hout'
  have e := (List.cons.inj hout').1
  simp only [pays, Prod.mk.injEq] at e
  rw [d2] at e
  obtain ⟨e0, e⟩ := e
  injection e with e1 e2 e3 e4
  have hco : co.condition = .atomicSwap c.sender c.receiver (some h) c.lockTime := by rw [g5, e1, e2, e4]
  have hworth : amount W.fee < amount co.value := by rw [g4]; exact h2
  refine ⟨co, g1, ⟨g2, g3⟩, network_same (named co g1) hid, hco, ⟨a, h1, g4⟩, e2 ▸ h4, e4 ▸ h5, ?_⟩
  intro hz ga gb W' C' S'' hc listed id data d hnew hp hdl
  refine ⟨?_, ?_⟩
  · intro secret x known len hx mine
    exact claimant_redeems hc listed hnew hz (by rw [hx]; exact hco) ga gb hworth known len mine hp hdl
  · intro over mine theirs
    exact claimant_refunds hc listed hnew hz hco ga gb hworth over mine theirs hp hdl

/-- **C138** (initiate). A contract that `initiate` submitted is on the chain that takes it, under the identifier it returned, and can be taken out. -/
theorem C138_initiated_partial (W : SwapWorld) (C : Client) (own : List UnlockHash) (S S' : ChainState) (hi : Informed W.toWorld C own S) (hs : Digest32 W.sha)
    (secret : Bytes) (r : Recipient) (amt : CVal) (legal : ∀ c, amt = .cur c → GoodCurrency c) (time : LockVal) (src : Source) (refund : Recipient)
    (data : DataArg) (c : Contract) (t : Tx) (res : (W.initiate secret r amt time src refund data true).result = .ok (c, t, true)) (taken : Accepts S t S')
    (named : ∀ co, FirstOutput S' co → NetworkOutputId W.H t 0 co.id) : ∃ co, Held W S' r amt (W.sha secret) time c co := by
  obtain ⟨g1, g2, g3⟩ := (C88_returned W secret .none r amt time src refund data true).1 c t true res
  have hp : t ∈ (W.initiate secret r amt time src refund data true).posted := by rw [g3]; simp
  have hv := C120_contract_partial W C own S hi.chain hi.mints hi.withdrawals hi.fee hi.positive secret .none r amt legal time src refund data true t (.inl hp)
  obtain ⟨h, _, hp'⟩ := ofRes_posted hp
  have hpr : Produces (W.createContract r amt time src refund data h true) t := resultOf_creates (.inl hp')
  obtain ⟨_, w, _, _, _, hw, _⟩ := createContract_produces hpr
  have hcon := C65_initiate_partial W hs secret r amt time src refund data true w hw (offered_all hi.chain hi.mints hi.withdrawals hw).2.2 hi.fee legal t (.inl hp)
  exact contract_held hi hcon g1 g2 hv taken named

/-- **C138** (participate). The same of `participate`. -/
theorem C138_participated_partial (W : SwapWorld) (C : Client) (own : List UnlockHash) (S S' : ChainState) (hi : Informed W.toWorld C own S)
    (hash : BVal) (r : Recipient) (amt : CVal) (legal : ∀ c, amt = .cur c → GoodCurrency c) (time : LockVal) (src : Source) (refund : Recipient)
    (data : DataArg) (c : Contract) (t : Tx) (res : (W.participate r amt hash time src refund data true).result = .ok (c, t, true)) (taken : Accepts S t S')
    (named : ∀ co, FirstOutput S' co → NetworkOutputId W.H t 0 co.id) : ∃ h co, Gives hash h ∧ Held W S' r amt h time c co := by
  obtain ⟨g1, g2, g3⟩ := (C88_returned W [] hash r amt time src refund data true).2 c t true res
  have hp : t ∈ (W.participate r amt hash time src refund data true).posted := by rw [g3]; simp
  have hv := C120_contract_partial W C own S hi.chain hi.mints hi.withdrawals hi.fee hi.positive [] hash r amt legal time src refund data true t (.inr hp)
  obtain ⟨h, _, hp'⟩ := ofRes_posted hp
  have hpr : Produces (W.createContract r amt time src refund data h true) t := resultOf_creates (.inl hp')
  obtain ⟨_, w, _, _, _, hw, _⟩ := createContract_produces hpr
  obtain ⟨h, hh, hcon⟩ := C65_participate_partial W r amt hash time src refund data true w hw (offered_all hi.chain hi.mints hi.withdrawals hw).2.2 hi.fee legal t (.inl hp)
  obtain ⟨co, hco⟩ := contract_held hi hcon g1 g2 hv taken named
  exact ⟨h, co, hh, hco⟩

/-- **C138** (atomic). Who takes out one contract with its secret thereby reveals it: with what the submitted transaction shows, the receiver of any other
contract under the same secret hash takes that one out. -/
theorem C138_atomic_partial (W : SwapWorld) (C : Client) (S : ChainState) (hc : Claimant W W C S) (id secret : BVal) (hid : OutputIdArg id)
    (hsec : ∀ b, Gives secret b → b.length = 32) (data : DataArg) (t : Tx) (ht : t ∈ (W.redeem id secret data).posted) :
    ∃ c s, Reported W id c ∧ Reveals t s ∧ ∀ W' C' S' co a b since, Claimant W W' C' S' → ListedAlone C' co → co.id.str ≠ List.replicate 64 '0' →
      co.condition = .atomicSwap a b c.secretHash since → GoodParty W.H a → GoodParty W.H b → amount W.fee < amount co.value → Spec.Holds W'.toWorld b →
      ∀ id' data' d, Hash.new id' = .ok co.id → payload data' = some d → d.length ≤ 83 →
      ∃ t', (W'.redeem id' (.bytes s) data').posted = [t'] ∧ Releases W' S' co b t' := by
  have hne : secret ≠ .none := by
    rintro rfl
    have := hsec [] rfl
    simp at this
  obtain ⟨c, s, h1, h2, h3, -, h5, -⟩ := redeem_claims W hc.digests.1 hc.digests.2 hc.keys.2.1 hc.fee id secret hne data t (fun _ h => sane_of hc.chain hid h) ht
  obtain ⟨ci, k, sig, i1, -, i3, -⟩ := h5.input
  refine ⟨c, s, h1, ⟨ci, k, sig, i1, i3⟩, ?_⟩
  intro W' C' S' co a b since hc' listed hz holds ga gb worth mine id' data' d hid' hd hdl
  rw [h3] at holds
  exact claimant_redeems (secret := .bytes s) hc' listed hid' hz holds ga gb worth ⟨rfl, .inr (hsec s h2)⟩ (hsec s h2) mine hd hdl

/-! ## A swap -/

/-- The wallet, knowing the time. -/
def withClock (W : World) : SwapWorld where
  toWorld := { W with chainTime := .ok 1600000000 }
  sha := toyHash

theorem clock_informed {W : World} {C : Client} {own : List UnlockHash} {S : ChainState} (h : Informed W C own S) : Informed (withClock W).toWorld C own S :=
  ⟨⟨h.chain.hash, h.chain.digest, h.chain.personal, h.chain.balance, h.chain.lawful, h.chain.truthful⟩, h.mints, h.withdrawals, h.fee, h.positive⟩

/-- `richWorld`, knowing the time. -/
def tradeSwap : SwapWorld := withClock richWorld

/-- What it returns when it initiates a swap of 3 TFT. -/
def tradeResult : Res (Contract × Tx × Bool) :=
  (tradeSwap.initiate (List.replicate 32 7) (.uh (addrOf key2)) (.int 3) (.int 1600000000) .none .none .none true).result
@[inherit_doc tradeResult] def tradeId : Hash := match tradeResult with | .ok x => x.1.id | .error _ => ⟨[]⟩

theorem trade_taken : ∃ c t S', tradeResult = .ok (c, t, true) ∧ c.id = tradeId ∧ Accepts guestChain t S' ∧ ∀ co, FirstOutput S' co → co.id = tradeId := by
  have h1 : (tradeResult.map fun x => (x.2.2, x.2.1.coinOutputs.length, x.2.1.coinInputs.isSome)) = .ok (true, 2, true) := by decide +kernel
  have hf : freshCheck guestChain [tradeId, ⟨List.replicate 32 51⟩] = true := by decide +kernel
  have hn : [tradeId, ⟨List.replicate 32 51⟩].Nodup := by decide +kernel
  cases hr : tradeResult with
  | error e => rw [hr] at h1; cases h1
  | ok x =>
    obtain ⟨c, t, b⟩ := x
    rw [hr] at h1
    have h1 := Except.ok.inj h1
    simp only [Prod.mk.injEq] at h1
    obtain ⟨rfl, h2, h3⟩ := h1
    have hid : c.id = tradeId := by
      unfold tradeId
      rw [hr]
    obtain ⟨l, hl⟩ := Option.isSome_iff_exists.1 h3
    obtain ⟨S', e, hS, e1, e2⟩ := accepts_listed guest_informed.chain.lawful t [tradeId, ⟨List.replicate 32 51⟩] h2.symm hn (fresh_of_check hf) l hl
    refine ⟨c, t, S', rfl, hid, hS, ?_⟩
    rintro co ⟨e', rest, k1, k2⟩
    rw [e1, List.getLast?_concat] at k1
    cases k1
    rw [k2] at e2
    exact (List.cons.inj e2).1

/-- The hypotheses of `C138_initiated_partial` are met. -/
example : ∃ c t S', tradeResult = .ok (c, t, true) ∧ Accepts guestChain t S' ∧
    ∃ co, Held tradeSwap S' (.uh (addrOf key2)) (.int 3) (toyHash (List.replicate 32 7)) (.int 1600000000) c co := by
  obtain ⟨c, t, S', h1, h2, h3, h4⟩ := trade_taken
  refine ⟨c, t, S', h1, h3, ?_⟩
  have hnet := ((C88_returned tradeSwap (List.replicate 32 7) .none (.uh (addrOf key2)) (.int 3) (.int 1600000000) .none .none .none true).1 c t true h1).2.1
  exact C138_initiated_partial tradeSwap (explorerOf richList) [addrOf key1] guestChain S' (clock_informed guest_informed) toyHash_digest (List.replicate 32 7) (.uh (addrOf key2)) (.int 3)
    (fun c h => by cases h) (.int 1600000000) .none .none .none c t h1 h3 (fun co hco => by rw [h4 co hco, ← h2]; exact hnet)

theorem release_fee (keys : List PublicKey) : GoodCurrency (releaseWorld keys).fee := by
  have e : (releaseWorld keys).fee = (releaseWorld []).fee := rfl
  rw [e]
  exact ⟨rfl, by decide⟩

theorem release_claimant (keys : List PublicKey) (h : ∀ k ∈ keys, k = key1 ∨ k = key2) :
    Claimant (releaseWorld keys) (releaseWorld keys) (contractExplorer ten sevens) (contractChain ten sevens) :=
  ⟨release_onChain keys, ⟨toyHash_digest, toyHash_digest⟩, ⟨rfl, rfl, rfl⟩,
    ⟨claimWorld_keys _ h 1600000000, swapWorld_owns _ h 1600000000, claimWorld_readable _ h 1600000000⟩, release_fee keys, ⟨1600000000, rfl⟩⟩

/-- The hypotheses of `C138_atomic_partial` are met, and those of what it concludes. -/
example : Claimant (releaseWorld [key2]) (releaseWorld [key2]) (contractExplorer ten sevens) (contractChain ten sevens) ∧ OutputIdArg (.bytes (List.replicate 32 9)) ∧
    ((releaseWorld [key2]).redeem (.bytes (List.replicate 32 9)) (.bytes (List.replicate 32 7)) .none).posted.length = 1 ∧
    ListedAlone (contractExplorer ten sevens) releaseCoin ∧ releaseCoin.id.str ≠ List.replicate 64 '0' ∧
    releaseCoin.condition = .atomicSwap (addrOf key1) (addrOf key2) (some sevens) 1500000000 ∧ GoodParty toyHash (addrOf key1) ∧ GoodParty toyHash (addrOf key2) ∧
    Spec.Holds (releaseWorld [key2]).toWorld (addrOf key2) := by
  have h2 : ∀ k ∈ [key2], k = key1 ∨ k = key2 := by simp
  refine ⟨release_claimant _ h2, swapId_arg, by decide +kernel, release_listed, by decide +kernel, rfl,
    ⟨(held_fits [key1] 0).sender, (held_fits [key1] 0).present.1⟩, ⟨(held_fits [key1] 0).receiver, (held_fits [key1] 0).present.2⟩, _, rfl, (addrOf key2).str toyHash, by simp, ?_⟩
  show UnlockHash.fromJson toyHash _ = _
  decide +kernel

end TF.Props
