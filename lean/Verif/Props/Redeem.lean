import Verif.Props.Live
import Verif.Props.Swap2
import Verif.Props.Client
import Verif.Spec.Redeem
/-! # C90: contracts can be redeemed and refunded -/
namespace TF.Props
open TF Spec

theorem fetch_reported {W : SwapWorld} {id : BVal} {c : Contract} {now : Int} (hr : Reported W id c) (ht : W.chainTime = .ok now) :
    ∃ c', W.fetch id false = .ok c' ∧ c'.id = c.id ∧ c'.sender = c.sender ∧ c'.receiver = c.receiver ∧ c'.secretHash = c.secretHash ∧ c'.lockTime = c.lockTime ∧
      c'.amount = c.amount := by
  obtain ⟨co, h1, h2, h3, h4⟩ := hr
  refine ⟨⟨co.id, c.sender, c.receiver, c.secretHash, c.lockTime, co.value, false⟩, ?_, h4, rfl, rfl, rfl, rfl, h3⟩
  simp only [SwapWorld.fetch, h1, ht, Contract.ofOutput, h2, bind, Except.bind, Bool.false_eq_true, if_false, pure, Except.pure]

theorem claim_live {W : SwapWorld} (hH : Digest32 W.H) (hk : GoodKeys W.toWorld) (hf : GoodCurrency W.fee) {c : Contract} (hc : FittingContract W.toWorld c)
    (asSender : Bool) {secret : Option Bytes} (hsec : ∀ b, secret = some b → b.length ≤ 32) {data : DataArg} {b : Bytes}
    (hd : payload data = some b) (hdl : b.length ≤ 83) (hfee : amount W.fee ≤ amount c.amount) (hheld : heldKeys W.toWorld [c.sender, c.receiver] ≠ []) :
    ∃ t0 t, W.claim c asSender secret data = .ok t0 ∧ (W.claimSubmit t0).posted = [t] := by
  obtain ⟨v, hv, hvg, hva⟩ := sub_amount hc.sane.1 hf hc.sane.2 hfee
  have hdat := setData_total hd hdl
  rw [dataIf_eq] at hdat
  let t0 : Tx := .v1 {
    minerFees := [⟨some W.fee.value⟩], data := b
    coinInputs := [⟨c.id, .swap .default none secret, some c.output⟩]
    coinOutputs := [⟨v, .unlockHash (if asSender then c.sender else c.receiver), ⟨[]⟩⟩] }
  have ht0 : W.claim c asSender secret data = .ok t0 := by
    simp only [SwapWorld.claim, Currency.set, hdat, hv, bind, Except.bind, pure, Except.pure]
    rfl
  have hlt := hc.sane.2
  have hfeefits : AmountFits ⟨some W.fee.value⟩ := ⟨hf, by
    have : amount (⟨some W.fee.value⟩ : Currency) = amount W.fee := rfl
    rw [this]; omega⟩
  have hr : ReadyToSign toyIp W.toWorld t0 [⟨c.id, .swap .default none secret, some c.output⟩] := by
    refine ⟨.inl ⟨_, rfl, rfl⟩, ⟨rfl, ⟨by simp [Few], ?_⟩, ⟨by simp [Few], ?_⟩, ⟨by simp [Few], by simp⟩, ⟨by simp [Few], by simp⟩, ⟨by simp [Few], ?_⟩, ?_⟩, rfl, by simp, ?_⟩
    · intro ci hci
      rw [List.mem_singleton.mp hci]
      exact ⟨hc.id, by decide, (fun x h => by cases h), hsec⟩
    · intro co hco
      rw [List.mem_singleton.mp hco]
      refine ⟨⟨hvg, by show amount v < _; omega⟩, ?_⟩
      show HashFits (if asSender then c.sender else c.receiver).hash
      cases asSender
      · exact hc.receiver
      · exact hc.sender
    · intro x hx
      rw [List.mem_singleton.mp hx]
      exact hfeefits
    · show b.length ≤ 2 ^ 32
      omega
    · intro ci hci
      rw [List.mem_singleton.mp hci]
      refine ⟨c.output, rfl, ⟨rfl, hc.present⟩, rfl, rfl, _, _, _, _, rfl⟩
  obtain ⟨t, ok, l, h1, h2, -, -, h5, -⟩ := signNew_ok toyIp_lawful hH hk hr
  have hok : ok = true := h5.mpr fun ci hci co hco => by
    rw [List.mem_singleton.mp hci] at hco
    cases hco
    exact hheld
  refine ⟨t0, t, ht0, ?_⟩
  simp only [SwapWorld.claimSubmit, h1, h2, hok, Outcome.ofRes, if_true]

theorem addressIn_holds {W : World} (hr : Readable W) {u : UnlockHash} (h : Holds W u) : ∃ addrs, W.addresses = .ok addrs ∧ addressIn W.H u addrs = .ok true := by
  obtain ⟨addrs, h1, h2⟩ := h
  obtain ⟨b, h3, h4⟩ := addressIn_total (u := u) (hr addrs h1)
  rw [h4 h2] at h3
  exact ⟨addrs, h1, h3⟩

theorem held_either {W : World} {u v w : UnlockHash} (hu : u = v ∨ u = w) {k : PublicKey} (h : W.keys.get? (u.str W.H) = some k) : heldKeys W [v, w] ≠ [] := by
  intro e
  unfold heldKeys at e
  rw [List.filterMap_eq_nil_iff] at e
  have := e u (by rcases hu with rfl | rfl <;> simp)
  rw [h] at this
  cases this

/-- **C90** (redeem). If the explorers report the contract as unspent, the secret opens it, its receiver is one of the wallet's addresses and it holds
at least the miner fee, then `redeem` submits a transaction. -/
theorem C90_redeem_partial (W : SwapWorld) (hs : Digest32 W.sha) (hH : Digest32 W.H) (hk : GoodKeys W.toWorld) (ho : OwnsKeys W.toWorld) (hread : Readable W.toWorld)
    (hf : GoodCurrency W.fee) (id secret : BVal) (data : DataArg) (c : Contract) (now : Int) (b : Bytes) (hr : Reported W id c) (ht : W.chainTime = .ok now)
    (hc : FittingContract W.toWorld c) (hfee : amount W.fee ≤ amount c.amount) (hopen : Opens W c secret) (hold : Holds W.toWorld c.receiver)
    (hd : payload data = some b) (hdl : b.length ≤ 83) :
    ∃ t, (W.redeem id secret data).posted = [t] := by
  obtain ⟨c', h1, e1, e2, e3, e4, e5, e6⟩ := fetch_reported hr ht
  obtain ⟨addrs, ha1, ha2⟩ := addressIn_holds hread hold
  have hver : c'.verifySecret W.sha secret = .ok true := (C64_verify_secret W.sha hs c' secret).2 (by obtain ⟨x, y, z⟩ := hopen; exact ⟨x, y, e4.trans z⟩)
  have hmay : W.mayRedeem c' secret = .ok () := by
    simp only [SwapWorld.mayRedeem, hver, ha1, e3, ha2, bind, Except.bind, pure, Except.pure, Bool.not_true, Bool.false_eq_true, if_false]
  have hset : ∃ s, setSecret secret = .ok s ∧ ∀ b, s = some b → b.length ≤ 32 := by
    obtain ⟨x, hx, -⟩ := hopen
    cases secret with
    | none => exact ⟨none, rfl, fun b h => by cases h⟩
    | other => cases hx
    | _ =>
      have hnew := secretNew_ok.2 hx
      unfold secretNew at hnew
      simp only [bind, Except.bind] at hnew
      split at hnew
      · cases hnew
      · rename_i d hd'
        cases hnew
        refine ⟨some d.value, by simp only [setSecret, hd', bind, Except.bind, pure, Except.pure], fun b h => ?_⟩
        cases h
        rcases hx.2 with h | h <;> rw [h] <;> decide
  obtain ⟨s, hs1, hs2⟩ := hset
  obtain ⟨k, hk1, -⟩ := holds_key hH ho hold
  have hc' : FittingContract W.toWorld c' :=
    ⟨e1 ▸ hc.id, e2 ▸ hc.sender, e3 ▸ hc.receiver, e6 ▸ hc.sane, by rw [e2, e3]; exact hc.present⟩
  obtain ⟨t0, t, g1, g2⟩ := claim_live hH hk hf hc' false hs2 hd hdl (by rw [e6]; exact hfee) (by rw [e2, e3]; exact held_either (.inr rfl) hk1)
  refine ⟨t, ?_⟩
  simp only [SwapWorld.redeem, h1, hmay, hs1, g1, Outcome.ofRes]
  exact g2

/-- **C90** (refund). If the explorers report the contract as unspent, it is no longer locked, its sender is one of the wallet's addresses and it holds
at least the miner fee, then `refund` submits a transaction. -/
theorem C90_refund_partial (W : SwapWorld) (hH : Digest32 W.H) (hk : GoodKeys W.toWorld) (ho : OwnsKeys W.toWorld) (hread : Readable W.toWorld)
    (hf : GoodCurrency W.fee) (id : BVal) (data : DataArg) (c : Contract) (now : Int) (b : Bytes) (hr : Reported W id c) (ht : W.chainTime = .ok now)
    (hc : FittingContract W.toWorld c) (hfee : amount W.fee ≤ amount c.amount) (hlock : c.lockTime ≤ now) (hold : Holds W.toWorld c.sender)
    (hd : payload data = some b) (hdl : b.length ≤ 83) :
    ∃ t, (W.refund id data).posted = [t] := by
  obtain ⟨c', h1, e1, e2, e3, e4, e5, e6⟩ := fetch_reported hr ht
  obtain ⟨addrs, ha1, ha2⟩ := addressIn_holds hread hold
  have hnot : ¬ now < c.lockTime := by omega
  have hmay : W.mayRefund c' = .ok () := by
    simp only [SwapWorld.mayRefund, ht, e5, if_neg hnot, ha1, e2, ha2, bind, Except.bind, pure, Except.pure, Bool.not_true, Bool.false_eq_true, if_false]
  obtain ⟨k, hk1, -⟩ := holds_key hH ho hold
  have hc' : FittingContract W.toWorld c' :=
    ⟨e1 ▸ hc.id, e2 ▸ hc.sender, e3 ▸ hc.receiver, e6 ▸ hc.sane, by rw [e2, e3]; exact hc.present⟩
  obtain ⟨t0, t, g1, g2⟩ := claim_live hH hk hf hc' true (secret := none) (fun b h => by cases h) hd hdl (by rw [e6]; exact hfee)
    (by rw [e2, e3]; exact held_either (.inl rfl) hk1)
  refine ⟨t, ?_⟩
  simp only [SwapWorld.refund, h1, hmay, g1, Outcome.ofRes]
  exact g2

/-! ## Examples -/

/-- `swapWorld` with 64-byte signatures. -/
def claimWorld (keys : List PublicKey) (now : Int) : SwapWorld := { swapWorld keys now with sign := liveWorld.sign }

theorem claimWorld_keys (keys : List PublicKey) (h : ∀ k ∈ keys, k = key1 ∨ k = key2) (now : Int) : GoodKeys (claimWorld keys now).toWorld := by
  have hl : ∀ a k, (claimWorld keys now).keys.lookup a = some k → (k = key1 ∨ k = key2) ∧ a = (addrOf k).str toyHash := by
    intro a k hk
    simp only [Keys.lookup, Option.map_eq_some_iff] at hk
    obtain ⟨p, hp, hpk⟩ := hk
    subst hpk
    have h1 := List.find?_some hp
    obtain ⟨k', hk', rfl⟩ := List.mem_map.1 (List.mem_of_find?_eq_some hp)
    exact ⟨h k' hk', (of_decide_eq_true h1).symm⟩
  refine ⟨?_, ?_, live_keys.sig⟩
  · intro a k hk
    obtain ⟨hk', ha⟩ := hl a k hk
    rw [ha]
    rcases hk' with rfl | rfl
    · exact ⟨addrOf key1, by show key1.unlockhash toyHash = _; decide +kernel, rfl⟩
    · exact ⟨addrOf key2, by show key2.unlockhash toyHash = _; decide +kernel, rfl⟩
  · intro a k hk
    obtain ⟨hk, -⟩ := hl a k hk
    rcases hk with rfl | rfl <;> rfl

theorem claimWorld_readable (keys : List PublicKey) (h : ∀ k ∈ keys, k = key1 ∨ k = key2) (now : Int) : Readable (claimWorld keys now).toWorld := by
  intro addrs ha a hm
  cases ha
  obtain ⟨k, hk, rfl⟩ := List.mem_map.1 hm
  rcases h k hk with rfl | rfl
  · exact ⟨addrOf key1, by show UnlockHash.fromJson toyHash _ = _; decide +kernel⟩
  · exact ⟨addrOf key2, by show UnlockHash.fromJson toyHash _ = _; decide +kernel⟩

/-- The contract `swapCoin` holds. -/
def heldContract : Contract := ⟨⟨List.replicate 32 9⟩, addrOf key1, addrOf key2, some (toyHash (List.replicate 32 7)), 1500000000, ⟨some ⟨false, 10, 0⟩⟩, true⟩

theorem held_fits (keys : List PublicKey) (now : Int) : FittingContract (claimWorld keys now).toWorld heldContract := by
  refine ⟨by show (List.replicate 32 (9 : UInt8)).length ≤ 32; decide, by show (addrOf key1).hash.value.length ≤ 32; decide +kernel,
    by show (addrOf key2).hash.value.length ≤ 32; decide +kernel, ⟨⟨rfl, by decide⟩, by decide +kernel⟩, ?_, ?_⟩
  · exact zero_not (by show _ ≠ some ((addrOf key1).str toyHash); decide +kernel)
  · exact zero_not (by show _ ≠ some ((addrOf key2).str toyHash); decide +kernel)

/-- All hypotheses of `C90_redeem_partial` are met. -/
example : ∃ t, ((claimWorld [key2] 1400000000).redeem (.bytes (List.replicate 32 9)) (.bytes (List.replicate 32 7)) .none).posted = [t] := by
  have h2 : ∀ k ∈ [key2], k = key1 ∨ k = key2 := by simp
  refine C90_redeem_partial _ toyHash_digest toyHash_digest (claimWorld_keys _ h2 _) (swapWorld_owns _ h2 1400000000) (claimWorld_readable _ h2 _) ⟨rfl, by decide⟩ _ _ _
    heldContract 1400000000 [] ⟨swapCoin, rfl, rfl, rfl, rfl⟩ rfl (held_fits _ _) (by decide +kernel) ⟨List.replicate 32 7, ⟨rfl, .inr rfl⟩, rfl⟩
    ⟨_, rfl, (addrOf key2).str toyHash, by simp, ?_⟩ rfl (by decide)
  show UnlockHash.fromJson toyHash _ = _
  decide +kernel
/-- All hypotheses of `C90_refund_partial` are met. -/
example : ∃ t, ((claimWorld [key1] 1600000000).refund (.bytes (List.replicate 32 9)) .none).posted = [t] := by
  have h1 : ∀ k ∈ [key1], k = key1 ∨ k = key2 := by simp
  refine C90_refund_partial _ toyHash_digest (claimWorld_keys _ h1 _) (swapWorld_owns _ h1 1600000000) (claimWorld_readable _ h1 _) ⟨rfl, by decide⟩ _ _
    heldContract 1600000000 [] ⟨swapCoin, rfl, rfl, rfl, rfl⟩ rfl (held_fits _ _) (by decide +kernel) (by decide)
    ⟨_, rfl, (addrOf key1).str toyHash, by simp, ?_⟩ rfl (by decide)
  show UnlockHash.fromJson toyHash _ = _
  decide +kernel

/-! ## Contracts for all -/

/-- **C90** (finding). No wallet redeems a contract whose participator is the free-for-all wallet, whatever the secret. -/
theorem C90_free_for_all_stuck (W : SwapWorld) (hs : Digest32 W.sha) (hH : Digest32 W.H) (ho : OwnsKeys W.toWorld) (id secret : BVal) (data : DataArg)
    (hr : ∀ c, Reported W id c → c.receiver.type = 0) : (W.redeem id secret data).posted = [] := by
  refine List.eq_nil_iff_forall_not_mem.mpr fun t ht => ?_
  obtain ⟨c, h1, ht⟩ := ofRes_posted ht
  obtain ⟨_, h2, -⟩ := ofRes_posted ht
  obtain ⟨hrep, -⟩ := fetch_ok h1
  obtain ⟨-, hold⟩ := mayRedeem_ok hs h2
  obtain ⟨k, -, -, -, h⟩ := holds_key hH ho hold
  rw [hr c hrep] at h
  exact absurd h (by decide)

/-- A contract over 10 TFT with the free-for-all wallet as participator. -/
def swapForAll : CoinOutput := { swapCoin with condition := .atomicSwap (addrOf key1) .default (some (toyHash (List.replicate 32 7))) 1500000000 }

/-- **C90** (finding). `initiate(None, …)` is documented to make a contract for the free-for-all wallet, and makes and submits one; but nobody redeems it: a
wallet that knows the secret does not, although it has a key it would sign with. -/
theorem C90_free_for_all_false :
    ((claimWorld [key1] 1400000000).initiate (List.replicate 32 7) .none (.int 10) (.int 1500000000) .none .none .none true).posted.length = 1 ∧
    ¬ ∀ (W : SwapWorld) (id secret : BVal) (c : Contract), Digest32 W.sha → Digest32 W.H → GoodKeys W.toWorld → OwnsKeys W.toWorld → Readable W.toWorld →
      Reported W id c → c.receiver = .default → Opens W c secret → amount W.fee ≤ amount c.amount → FittingContract W.toWorld c → W.chainTime ≠ .error .exception →
      W.keys.get? (c.receiver.str W.H) ≠ none → ∃ t, (W.redeem id secret .none).posted = [t] := by
  constructor
  · decide +kernel
  · intro h
    have h2 : ∀ k ∈ [key2], k = key1 ∨ k = key2 := by simp
    have hw := swapWorld_owns _ h2 1400000000
    let W : SwapWorld := { claimWorld [key2] 1400000000 with output := fun _ => .ok (swapForAll, false) }
    have hrep : ∀ c, Reported W (.bytes (List.replicate 32 9)) c → c.receiver.type = 0 := by
      rintro c ⟨co, h1, h2, -⟩
      cases h1
      have : (Condition.atomicSwap (addrOf key1) .default (some (toyHash (List.replicate 32 7))) 1500000000) = .atomicSwap c.sender c.receiver c.secretHash c.lockTime := h2
      injection this with _ e
      rw [← e]; rfl
    obtain ⟨t, ht⟩ := h W (.bytes (List.replicate 32 9)) (.bytes (List.replicate 32 7)) { heldContract with receiver := .default } toyHash_digest toyHash_digest
      (claimWorld_keys _ h2 1400000000) hw (claimWorld_readable _ h2 1400000000) ⟨swapForAll, rfl, rfl, rfl, rfl⟩ rfl
      ⟨List.replicate 32 7, ⟨rfl, .inr rfl⟩, rfl⟩ (by decide +kernel)
      ⟨(held_fits [] 0).id, (held_fits [] 0).sender, by show UnlockHash.default.hash.value.length ≤ 32; decide, (held_fits [] 0).sane, (held_fits [] 0).present.1,
        zero_not (by show _ ≠ some (UnlockHash.default.str toyHash); decide +kernel)⟩
      (by intro h; cases h) (by decide +kernel)
    rw [C90_free_for_all_stuck W toyHash_digest toyHash_digest hw _ _ _ hrep] at ht
    cases ht

theorem contractTx_party {W : SwapWorld} {w : Wallets} {r : Recipient} {a : Currency} {time : LockVal} {src : Source} {refund : Recipient} {data : DataArg}
    {hash : Bytes} {t : Tx} (h : W.contractTx w r a time src refund data hash = .ok t) : ∃ u, partyNew W.H r = .ok u := by
  unfold SwapWorld.contractTx at h
  obtain ⟨need, -, h⟩ := bind_ok h
  obtain ⟨⟨ins, rem, sug⟩, -, h⟩ := bind_ok h
  obtain ⟨rf, -, h⟩ := bind_ok h
  obtain ⟨fee, -, h⟩ := bind_ok h
  obtain ⟨d, -, h⟩ := bind_ok h
  obtain ⟨T, -, h⟩ := bind_ok h
  obtain ⟨c, hc, -⟩ := bind_ok h
  unfold contractCondition at hc
  obtain ⟨s, -, hc⟩ := bind_ok hc
  obtain ⟨u, hu, -⟩ := bind_ok hc
  exact ⟨u, hu⟩

/-- **C90** (finding). Multi-signature participators, documented for `initiate` as a list of addresses or a pair of such a list and a number, are never
accepted: no contract is made. -/
theorem C90_multisig_participator_false (W : SwapWorld) (secret : Bytes) (r : Recipient) (hr : (∃ l, r = .list l) ∨ ∃ x y, r = .pair x y) (amt : CVal)
    (time : LockVal) (src : Source) (refund : Recipient) (data : DataArg) (submit : Bool) :
    ∀ t, ¬ Creates (W.initiate secret r amt time src refund data submit) t := by
  intro t ht
  obtain ⟨h, -, ht⟩ := ofRes_creates ht
  obtain ⟨a, w, t0, t1, -, -, h3, -⟩ := createContract_produces (resultOf_creates ht)
  obtain ⟨u, hu⟩ := contractTx_party h3
  rcases hr with ⟨l, rfl⟩ | ⟨x, y, rfl⟩ <;> cases hu
example : ((claimWorld [key1] 1400000000).initiate (List.replicate 32 7) (.list [.uh (addrOf key1), .uh (addrOf key2)]) (.int 10) (.int 1500000000) .none .none .none
    true).result.map (fun _ => ()) = .error .typeError := by decide +kernel

/-! ## New contracts -/

theorem setId_fits {l : List CoinOutput} {i : Nat} {id : Hash} (h : AllFit OutputFits l) : AllFit OutputFits (setIdAt l i id) := by
  refine ⟨by show _ ≤ _; rw [setIdAt_length]; exact h.1, fun co hco => ?_⟩
  unfold setIdAt at hco
  split at hco
  · exact h.2 co hco
  · rename_i x hx
    rcases List.mem_or_eq_of_mem_set hco with hm | rfl
    · exact h.2 co hm
    · exact h.2 x (List.mem_of_getElem? hx)

theorem fillIds_live {L : IpLib} (hL : LawfulIp L) {H : Bytes → Bytes} (hH : Digest32 H) (n : Nat) : ∀ {i : Nat} {v : TxV1}, TxFits L (.v1 v) → i + n ≤ v.coinOutputs.length →
    ∃ outs, fillIds H i n (.v1 v) = .ok (.v1 { v with coinOutputs := outs }) ∧ outs.map bareOutput = v.coinOutputs.map bareOutput := by
  induction n with
  | zero => exact fun _ _ => ⟨_, rfl, rfl⟩
  | succ n ih =>
    intro i v hf hi
    obtain ⟨id, hid⟩ := C99_output_ids L hL H hH (.v1 v) hf i (by show i < v.coinOutputs.length; omega)
    obtain ⟨outs, h, hb⟩ := ih (i := i + 1) (v := { v with coinOutputs := setIdAt v.coinOutputs i id }) ⟨hf.1, hf.2.1, setId_fits hf.2.2.1, hf.2.2.2⟩
      (by show _ ≤ (setIdAt v.coinOutputs i id).length; rw [setIdAt_length]; omega)
    refine ⟨outs, ?_, hb.trans (setIdAt_bare v.coinOutputs i id)⟩
    simp only [fillIds, hid, bind, Except.bind]
    exact h

theorem partyNew_of {H : Bytes → Bytes} {r : Recipient} {u : UnlockHash} (h : PartyOf H r u) : partyNew H r = .ok u := by
  unfold PartyOf at h
  have sp : ∀ {u : UnlockHash}, (u.type = 0 ∨ u.type = 1) → swapParty u = .ok u := fun h => by unfold swapParty; rw [if_pos h.symm]
  split at h
  · rw [h]; rfl
  · rename_i s
    obtain ⟨h1, h2⟩ := h
    unfold Names at h1
    simp only [partyNew, h1, bind, Except.bind]
    exact sp h2
  · obtain ⟨rfl, h2⟩ := h
    exact sp h2
  · cases h

/-- The transaction of a new contract can be made when it can be afforded, and is ready to be signed. -/
theorem contractTx_live (L : IpLib) {W : SwapWorld} {w : Wallets} {r : Recipient} {a : Currency} {time : LockVal} {src : Source} {refund : Recipient} {data : DataArg}
    {hash b : Bytes} {u : UnlockHash} {T : Int} (hb : GoodBalance W.toWorld w) (hfee : GoodCurrency W.fee) (ha : GoodCurrency a) (hpos : 0 < amount a + amount W.fee)
    (hhash : hash.length = 32 ∨ hash = []) (hu : PartyOf W.H r u) (huf : HashFits u.hash) (hT : RefundAt time T) (hTw : T < 2 ^ 64)
    (hsrc : ReadableSource W.H w src) (hsim : SimpleSource W.H w src) (haff : Affordable W.toWorld w src (amount a + amount W.fee))
    (hrf : GoodRefund W.toWorld w src refund) (hrr : GoodRefunder W.toWorld w src refund) (hd : payload data = some b) (hdl : b.length ≤ 83) :
    ∃ v l, W.contractTx w r a time src refund data hash = .ok (.v1 v) ∧ ReadyToSign L W.toWorld (.v1 v) l ∧ (∀ ci ∈ l, ∃ co, Eligible W.H w src co ∧ ci.parent = some co) ∧
      ∃ co rest, v.coinOutputs = co :: rest ∧ ∃ s, co.condition = .atomicSwap s u (some hash) T := by
  have hlt := affordable_lt hb haff
  obtain ⟨need, hneed, hng, hna⟩ := add_amount ha hfee hlt
  obtain ⟨⟨ins, rem, suggested⟩, hf⟩ := fund_live hb hng (by omega) hsrc hsim (by rw [hna]; exact haff)
  obtain ⟨rf, hrfc⟩ := refund_ok hrf suggested
  have hto := (fund_facts (refund := refund) ha hfee hb.sane hneed hf).2.2.2.2.2.2 rf hrfc
  have hs : ∃ s, partyNew W.H (W.refunder rf) = .ok s ∧ HashFits s.hash := by
    have hfit := hrf.fits rf hto
    cases rf with
    | unlockHash s => exact ⟨s, partyNew_of (r := .uh s) ⟨rfl, hrr.personal s hto⟩, hfit⟩
    | _ =>
      obtain ⟨s, h1, h2, h3⟩ := hrr.other _ hto (fun u h => by cases h)
      exact ⟨s, partyNew_of (r := .str W.keys.primary) ⟨h1, h2⟩, h3⟩
  obtain ⟨s, hs1, hs2⟩ := hs
  have hsh : secretHashNew (.bytes hash) = .ok hash := secretHashNew_ok.mpr ⟨rfl, hhash.symm⟩
  have hlk : swapLockTime T = .ok T := by
    have := hT.2
    have h0 : ¬ T < 0 := by omega
    have h1 : lockIsTimestamp T = true := decide_eq_true (by omega)
    simp only [swapLockTime, outputLock, if_neg h0, h1, bind, Except.bind, if_true, pure, Except.pure]
  have hrt : refundTime time = .ok T := by rcases hT.1 with rfl | rfl <;> rfl
  have hcc : contractCondition W.H (W.refunder rf) r hash T = .ok (.atomicSwap s u (some hash) T) := by
    simp only [contractCondition, hs1, partyNew_of hu, hsh, hlk, bind, Except.bind, pure, Except.pure]
  have hcf : ConditionFits (.atomicSwap s u (some hash) T) := ⟨hs2, huf, (fun b hb => by cases hb; rcases hhash with h | h <;> simp [h]), by have := hT.2; exact ⟨by omega, hTw⟩⟩
  obtain ⟨t, l, h1, h2, h3⟩ := payment_live L (outs := [⟨a, .atomicSwap s u (some hash) T, ⟨[]⟩⟩]) (sum := a) hb hfee ha (by simp [total]) hpos
    (fun co hco => by rw [List.mem_singleton.mp hco]; exact ⟨ha, hcf⟩) (by simp) hsrc hsim haff hrf hd hdl
  have hdat := setData_total hd hdl
  have hset : Currency.set (.cur W.fee) = .ok ⟨some W.fee.value⟩ := rfl
  unfold World.payment at h1
  simp only [hneed, hf, hrfc, hset, hdat, bind, Except.bind, pure, Except.pure] at h1
  have h1 := Except.ok.inj h1
  subst h1
  rw [dataIf_eq] at hdat
  refine ⟨_, l, ?_, h2, h3, _, _, rfl, s, rfl⟩
  unfold SwapWorld.contractTx
  simp only [hneed, hf, hrfc, hset, hdat, hrt, hcc, bind, Except.bind, pure, Except.pure]

theorem create_live {W : SwapWorld} {w : Wallets} {r : Recipient} {amt : CVal} {a : Currency} {time : LockVal} {src : Source} {refund : Recipient} {data : DataArg}
    {hash b : Bytes} {u : UnlockHash} {T now : Int} (hH : Digest32 W.H) (hk : GoodKeys W.toWorld) (hw : W.balance = .ok w) (hb : GoodBalance W.toWorld w)
    (hfee : GoodCurrency W.fee) (hamt : ∀ c, amt = .cur c → GoodCurrency c) (hset : Currency.set amt = .ok a) (hover : amount W.fee < amount a)
    (hhash : hash.length = 32 ∨ hash = []) (hu : PartyOf W.H r u) (huf : HashFits u.hash) (hT : RefundAt time T) (hTw : T < 2 ^ 64)
    (hsrc : ReadableSource W.H w src) (hsim : SimpleSource W.H w src) (haff : Affordable W.toWorld w src (amount a + amount W.fee))
    (hrf : GoodRefund W.toWorld w src refund) (hrr : GoodRefunder W.toWorld w src refund) (hd : payload data = some b) (hdl : b.length ≤ 83) (hnow : W.chainTime = .ok now) :
    let o := W.resultOf (W.createContract r amt time src refund data hash true)
    ContractIfKeys W.toWorld o ∧ ((∀ co, Eligible W.H w src co → Unlockable W.toWorld co.condition) → ∃ t, o.posted = [t]) := by
  intro o
  have hg := currency_set_good hamt hset
  have hsw : W.swapAmount amt = .ok a := by
    have h1 : ¬ a.le zeroCur = true := by rw [le_amount hg good_zeroCur, amount_zeroCur]; omega
    have h2 : ¬ a.le W.fee = true := by rw [le_amount hg hfee]; omega
    simp only [SwapWorld.swapAmount, positiveAmount, hset, if_neg h1, if_neg h2, bind, Except.bind, pure, Except.pure]
  obtain ⟨v, l, h1, h2, h3, co, rest, h4, s, h5⟩ := contractTx_live toyIp hb hfee hg (by omega) hhash hu huf hT hTw hsrc hsim haff hrf hrr hd hdl
  obtain ⟨t', ok, l', g1, g2, g3, g4, g5, g6, g7⟩ := signNew_ok toyIp_lawful hH hk h2
  simp only [withInputs] at g7
  subst g7
  obtain ⟨outs, f1, f2⟩ := fillIds_live toyIp_lawful hH v.coinOutputs.length (i := 0) (v := { v with coinInputs := l' }) g6 (by simp)
  have hful : (Tx.v1 { v with coinInputs := l', coinOutputs := outs }).isFulfilled = .ok ok := by
    simp only [Tx.isFulfilled, Tx.coinInputs, Tx.extraFulfilled] at g2 ⊢
    exact g2
  have e : W.createContract r amt time src refund data hash true = W.submitContract w (.v1 { v with coinInputs := l', coinOutputs := outs }) true := by
    simp only [SwapWorld.createContract, hsw, hw, h1, g1, Outcome.ofRes]
    simp only [Tx.coinOutputs]
    simp only [f1]
  have hks : KeysSuffice W.toWorld l' ↔ KeysSuffice W.toWorld l := suffice_parents g4
  constructor
  · refine ⟨.v1 { v with coinInputs := l', coinOutputs := outs }, l', rfl, ?_⟩
    rw [hks, ← g5]
    show ok = true ∧ (W.resultOf _).posted = _ ∨ _ ∧ (W.resultOf _).posted = _ ∧ ∃ c, (W.resultOf _).result = _
    rw [e]
    cases ok with
    | true => left; simp only [SwapWorld.resultOf, SwapWorld.submitContract, hful, Outcome.ofRes, if_true, true_and]
    | false =>
      right
      simp only [SwapWorld.resultOf, SwapWorld.submitContract, hful, Outcome.ofRes, if_true, Bool.false_eq_true, if_false, not_false_eq_true, true_and, bind, Except.bind]
      have : ∃ co' rest', outs = co' :: rest' ∧ ∃ s, co'.condition = .atomicSwap s u (some hash) T := by
        rw [h4] at f2
        cases outs with
        | nil => simp at f2
        | cons co' rest' =>
          refine ⟨co', rest', rfl, s, ?_⟩
          have hco : bareOutput co' = bareOutput co := (List.cons.inj f2).1
          have : (bareOutput co').condition = (bareOutput co).condition := by rw [hco]
          have : co'.condition = co.condition := this
          rw [this, h5]
      obtain ⟨co', rest', rfl, s', hs'⟩ := this
      simp only [Tx.coinOutputs, hnow, Contract.ofOutput, hs', pure, Except.pure]
      exact ⟨_, rfl⟩
  · intro hun
    have hok : ok = true := g5.mpr (suffice_eligible h3 hun)
    refine ⟨.v1 { v with coinInputs := l', coinOutputs := outs }, ?_⟩
    show (W.resultOf _).posted = _
    rw [e]
    simp only [SwapWorld.resultOf, SwapWorld.submitContract, hful, hok, Outcome.ofRes, if_true]

/-- **C100** (opening an atomic swap). Let the wallet know a good balance and have good keys, let the amount exceed the miner fee, let participator, refund
time, refund and data be legal, and let at most 99 of the outputs eligible for the source reach the amount plus the fee. Then `initiate` makes a contract; it
is submitted exactly if the wallet has the keys for its inputs, and returned unsubmitted otherwise. -/
theorem C100_initiate_partial (W : SwapWorld) (w : Wallets) (secret : Bytes) (r : Recipient) (amt : CVal) (a : Currency) (time : LockVal) (src : Source) (refund : Recipient)
    (data : DataArg) (b : Bytes) (u : UnlockHash) (T now : Int) (hsha : Digest32 W.sha) (hH : Digest32 W.H) (hk : GoodKeys W.toWorld) (hw : W.balance = .ok w)
    (hb : GoodBalance W.toWorld w) (hfee : GoodCurrency W.fee) (hamt : ∀ c, amt = .cur c → GoodCurrency c) (hset : Currency.set amt = .ok a)
    (hover : amount W.fee < amount a) (hu : PartyOf W.H r u) (huf : HashFits u.hash) (hT : RefundAt time T) (hTw : T < 2 ^ 64) (hsrc : ReadableSource W.H w src)
    (hsim : SimpleSource W.H w src) (haff : Affordable W.toWorld w src (amount a + amount W.fee)) (hrf : GoodRefund W.toWorld w src refund)
    (hrr : GoodRefunder W.toWorld w src refund) (hd : payload data = some b) (hdl : b.length ≤ 83) (hnow : W.chainTime = .ok now) :
    ContractIfKeys W.toWorld (W.initiate secret r amt time src refund data true) ∧
      ((∀ co, Eligible W.H w src co → Unlockable W.toWorld co.condition) → ∃ t, (W.initiate secret r amt time src refund data true).posted = [t]) := by
  have hh : secretHashNew (.bytes (W.sha secret)) = .ok (W.sha secret) := secretHashNew_ok.mpr ⟨rfl, .inr (hsha _)⟩
  have e : W.initiate secret r amt time src refund data true = W.resultOf (W.createContract r amt time src refund data (W.sha secret) true) := by
    simp only [SwapWorld.initiate, hh, Outcome.ofRes]
  rw [e]
  exact create_live hH hk hw hb hfee hamt hset hover (.inl (hsha _)) hu huf hT hTw hsrc hsim haff hrf hrr hd hdl hnow

/-- **C100** (joining an atomic swap). The same for `participate` with a secret hash. -/
theorem C100_participate_partial (W : SwapWorld) (w : Wallets) (hash : BVal) (h : Bytes) (r : Recipient) (amt : CVal) (a : Currency) (time : LockVal) (src : Source)
    (refund : Recipient) (data : DataArg) (b : Bytes) (u : UnlockHash) (T now : Int) (hhash : Gives hash h) (hH : Digest32 W.H) (hk : GoodKeys W.toWorld)
    (hw : W.balance = .ok w) (hb : GoodBalance W.toWorld w) (hfee : GoodCurrency W.fee) (hamt : ∀ c, amt = .cur c → GoodCurrency c) (hset : Currency.set amt = .ok a)
    (hover : amount W.fee < amount a) (hu : PartyOf W.H r u) (huf : HashFits u.hash) (hT : RefundAt time T) (hTw : T < 2 ^ 64) (hsrc : ReadableSource W.H w src)
    (hsim : SimpleSource W.H w src) (haff : Affordable W.toWorld w src (amount a + amount W.fee)) (hrf : GoodRefund W.toWorld w src refund)
    (hrr : GoodRefunder W.toWorld w src refund) (hd : payload data = some b) (hdl : b.length ≤ 83) (hnow : W.chainTime = .ok now) :
    ContractIfKeys W.toWorld (W.participate r amt hash time src refund data true) ∧
      ((∀ co, Eligible W.H w src co → Unlockable W.toWorld co.condition) → ∃ t, (W.participate r amt hash time src refund data true).posted = [t]) := by
  have hlen : h.length = 32 ∨ h = [] := by
    have := (gives_norm.mp hhash).2
    exact this.symm
  have e : W.participate r amt hash time src refund data true = W.resultOf (W.createContract r amt time src refund data h true) := by
    simp only [SwapWorld.participate, secretHashNew_ok.mpr hhash, Outcome.ofRes]
  rw [e]
  exact create_live hH hk hw hb hfee hamt hset hover hlen hu huf hT hTw hsrc hsim haff hrf hrr hd hdl hnow

/-- `liveWorld` at a certain time, with sha256 for atomic swaps. -/
def openWorld : SwapWorld where
  toWorld := { liveWorld with chainTime := .ok 1400000000 }
  sha := toyHash

theorem open_refund {c : Condition} (h : RefundTo openWorld.toWorld liveBalance .none .none c) : c = .unlockHash (addrOf key1) := by
  cases h with
  | given _ _ h => exact absurd rfl h
  | source _ h => exact absurd h no_single
  | multi _ _ _ h => exact absurd h no_single
  | primary u h hu =>
    have e : UnlockHash.fromJson toyHash (.str liveWorld.keys.primary) = .ok (addrOf key1) := by decide +kernel
    rw [show u = addrOf key1 from Except.ok.inj (hu.symm.trans e)]

/-- The hypotheses of `C100_initiate_partial` are met by this wallet and a contract over 8 TFT with the owner of `key2`. -/
example : ∃ t, (openWorld.initiate (List.replicate 32 7) (.uh (addrOf key2)) (.int 8) (.int 1500000000) .none .none .none true).posted = [t] := by
  have hu : PartyOf openWorld.H (.uh (addrOf key2)) (addrOf key2) := ⟨rfl, by decide +kernel⟩
  have hset : Currency.set (.int 8) = .ok ⟨some ⟨false, 8, 0⟩⟩ := by decide +kernel
  have hk : GoodKeys openWorld.toWorld := ⟨live_keys.filed, live_keys.full, live_keys.sig⟩
  have hb : GoodBalance openWorld.toWorld liveBalance := ⟨live_balance.filed, live_balance.sane, live_balance.ordinary⟩
  have haff : Affordable openWorld.toWorld liveBalance .none (amount ⟨some ⟨false, 8, 0⟩⟩ + amount openWorld.fee) := by
    obtain ⟨s, h1, h2, h3, h4⟩ := live_affords
    exact ⟨s, h1, h2, h3, Nat.le_trans (by decide +kernel) h4⟩
  have hrf : GoodRefund openWorld.toWorld liveBalance .none .none := ⟨live_refund.primary, live_refund.given, fun c h => by
    rw [open_refund h]; show (addrOf key1).hash.value.length ≤ 32; decide +kernel⟩
  have hrr : GoodRefunder openWorld.toWorld liveBalance .none .none := ⟨fun u h => by
    cases open_refund h; decide +kernel, fun c h hne => absurd (open_refund h) (hne _)⟩
  refine (C100_initiate_partial openWorld liveBalance _ _ _ ⟨some ⟨false, 8, 0⟩⟩ _ _ _ _ [] (addrOf key2) 1500000000 1400000000 toyHash_digest toyHash_digest
    hk rfl hb ⟨rfl, by decide⟩ (fun c h => by cases h) hset (by decide +kernel) hu (by show (addrOf key2).hash.value.length ≤ 32; decide +kernel) ⟨.inl rfl, by decide⟩
    (by decide) (none_readable _ _) (.inl fun u h => absurd rfl h) haff hrf hrr rfl (by decide) rfl).2 ?_
  intro co h
  rcases live_eligible co h with rfl | rfl | rfl <;> (show heldKeys liveWorld [_] ≠ []; decide +kernel)
example : (openWorld.participate (.uh (addrOf key2)) (.int 8) (.bytes (toyHash [1])) (.int 1500000000) .none .none .none true).posted.length = 1 ∧
    Gives (.bytes (toyHash [1])) (toyHash [1]) := ⟨by decide +kernel, rfl, .inr rfl⟩

end TF.Props
