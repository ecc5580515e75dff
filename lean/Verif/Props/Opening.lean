import Verif.Props.SpendableOps
import Verif.Props.Exchange
/-! # C138: a wallet with the means can create a contract -/
namespace TF.Props
open TF TF.Spec

theorem valid_succeeds {α : Type} {W : World} {C : Client} {own : List UnlockHash} {S : ChainState} {n : Nat} (h : Means W C own S n) {o : Outcome α} {t : Tx}
    (ht : o.posted = [t]) (hvalid : ValidOn W S t) : Succeeds W S o := by
  refine ⟨t, ht, hvalid, fun ids h1 h2 h3 => ?_⟩
  obtain ⟨l, _, hl, _⟩ := hvalid.inputs
  exact accepts_exists h.informed.chain.lawful t ids h1 h2 h3 l hl

theorem means_refunder {W : World} {C : Client} {own : List UnlockHash} {S : ChainState} {n : Nat} (h : Means W C own S n) (w : Wallets) : GoodRefunder W w .none .none := by
  obtain ⟨u, hu, hp⟩ := h.primary
  have h1 : ∀ c, RefundTo W w .none .none c → c = .unlockHash u := by
    intro c hc
    generalize hsrc : Source.none = src0 at hc
    generalize hr0 : Recipient.none = r0 at hc
    cases hc with
    | given _ _ h _ => exact absurd hr0.symm h
    | source u single _ => subst hsrc; exact absurd single (by simp [SingleSource])
    | multi u m _ single _ _ _ => subst hsrc; exact absurd single (by simp [SingleSource])
    | primary u' _ hu' =>
      unfold Names at hp
      rw [hp] at hu'
      cases hu'
      rfl
  exact ⟨fun v hv => by cases h1 _ hv; exact .inr (h.informed.chain.personal u hu).1, fun c hc hne => absurd (h1 c hc) (hne u)⟩

/-- **C138** (creation). A wallet that owns the amount and the fee initiates a swap: the one transaction it submits is valid, and any such chain can take it; unless the network does
not confirm it, the contract is returned. -/
theorem C138_initiates_partial (W : SwapWorld) (C : Client) (own : List UnlockHash) (S : ChainState) (hs : Digest32 W.sha) (amt : CVal) (legal : ∀ c, amt = .cur c → GoodCurrency c)
    (a : Currency) (ha : Currency.set amt = .ok a) (over : amount W.fee < amount a) (means : Means W.toWorld C own S (amount a)) (now : Int) (clock : W.chainTime = .ok now)
    (secret : Bytes) (r : Recipient) (u : UnlockHash) (party : PartyOf W.H r u) (fits : HashFits u.hash) (time : LockVal) (T : Int) (until_ : RefundAt time T) (word : T < 2 ^ 64)
    (data : DataArg) (b : Bytes) (hd : payload data = some b) (hdl : b.length ≤ 83) :
    Succeeds W.toWorld S (W.initiate secret r amt time .none .none data true) ∧
      ((∀ w t, W.balance = .ok w → t ∈ (W.initiate secret r amt time .none .none data true).posted → ¬ Trouble W.toWorld w t) →
        ∃ c t, (W.initiate secret r amt time .none .none data true).result = .ok (c, t, true)) := by
  obtain ⟨w, hc, hun⟩ := own_means means
  have hi := means.informed
  obtain ⟨_, hpost⟩ := C100_initiate_partial W w secret r amt a time .none .none data b u T now hs hi.chain.digest means.keys hc.balance hc.good hc.fee legal ha over party fits until_
    word hc.source hc.simple hc.affordable hc.refunds (means_refunder means w) hd hdl clock
  obtain ⟨t, ht⟩ := hpost hun
  have hv := C120_contract_partial W C own S hi.chain hi.mints hi.withdrawals hi.fee hi.positive secret .none r amt legal time .none .none data true t (.inl (by rw [ht]; simp))
  refine ⟨valid_succeeds means ht hv, fun calm => ?_⟩
  cases hr : (W.initiate secret r amt time .none .none data true).result with
  | error e =>
    rcases C91_secret_partial W secret r amt time .none .none data true e hr with h | ⟨t', w', h1, h2, h3 | h3⟩
    · rw [ht] at h; cases h
    · exact absurd h3 (calm w' t' h2 (by rw [h1]; simp))
    · rw [clock] at h3; cases h3
  | ok x =>
    obtain ⟨c, t', s⟩ := x
    obtain ⟨_, _, h3⟩ := (C88_returned W secret .none r amt time .none .none data true).1 c t' s hr
    cases s with
    | true => exact ⟨c, t', rfl⟩
    | false => rw [ht] at h3; cases h3

/-- **C138** (creation). The same for `participate`. -/
theorem C138_participates_partial (W : SwapWorld) (C : Client) (own : List UnlockHash) (S : ChainState) (amt : CVal) (legal : ∀ c, amt = .cur c → GoodCurrency c)
    (a : Currency) (ha : Currency.set amt = .ok a) (over : amount W.fee < amount a) (means : Means W.toWorld C own S (amount a)) (now : Int) (clock : W.chainTime = .ok now)
    (hash : BVal) (h : Bytes) (gives : Gives hash h) (r : Recipient) (u : UnlockHash) (party : PartyOf W.H r u) (fits : HashFits u.hash) (time : LockVal) (T : Int)
    (until_ : RefundAt time T) (word : T < 2 ^ 64) (data : DataArg) (b : Bytes) (hd : payload data = some b) (hdl : b.length ≤ 83) :
    Succeeds W.toWorld S (W.participate r amt hash time .none .none data true) ∧
      ((∀ w t, W.balance = .ok w → t ∈ (W.participate r amt hash time .none .none data true).posted → ¬ Trouble W.toWorld w t) →
        ∃ c t, (W.participate r amt hash time .none .none data true).result = .ok (c, t, true)) := by
  obtain ⟨w, hc, hun⟩ := own_means means
  have hi := means.informed
  obtain ⟨_, hpost⟩ := C100_participate_partial W w hash h r amt a time .none .none data b u T now gives hi.chain.digest means.keys hc.balance hc.good hc.fee legal ha over party fits
    until_ word hc.source hc.simple hc.affordable hc.refunds (means_refunder means w) hd hdl clock
  obtain ⟨t, ht⟩ := hpost hun
  have hv := C120_contract_partial W C own S hi.chain hi.mints hi.withdrawals hi.fee hi.positive [] hash r amt legal time .none .none data true t (.inr (by rw [ht]; simp))
  refine ⟨valid_succeeds means ht hv, fun calm => ?_⟩
  cases hr : (W.participate r amt hash time .none .none data true).result with
  | error e =>
    rcases C85_participate_partial W r amt hash time .none .none data true e hr with h | ⟨t', w', h1, h2, h3 | h3⟩
    · rw [ht] at h; cases h
    · exact absurd h3 (calm w' t' h2 (by rw [h1]; simp))
    · rw [clock] at h3; cases h3
  | ok x =>
    obtain ⟨c, t', s⟩ := x
    obtain ⟨_, _, h3⟩ := (C88_returned W [] hash r amt time .none .none data true).2 c t' s hr
    cases s with
    | true => exact ⟨c, t', rfl⟩
    | false => rw [ht] at h3; cases h3

/-- `fundedWorld` with sha256 for atomic swaps. -/
def fundedSwap : SwapWorld where
  toWorld := fundedWorld
  sha := toyHash

/-- It opens a contract over 400 TFT, and joins another. -/
example : Succeeds fundedSwap.toWorld bigChain (fundedSwap.initiate (List.replicate 32 7) (.uh (addrOf key2)) (.int 400) (.int 1600000000) .none .none .none true) ∧
    Succeeds fundedSwap.toWorld bigChain (fundedSwap.participate (.uh (addrOf key2)) (.int 400) (.bytes (toyHash [1])) (.int 1600000000) .none .none .none true) :=
  have hover : amount liveBots.fee < amount ⟨some ⟨false, 400, 0⟩⟩ := by decide +kernel
  have hf : HashFits (addrOf key2).hash := by show (addrOf key2).hash.value.length ≤ 32; decide +kernel
  ⟨(C138_initiates_partial fundedSwap (explorerOf bigList) [addrOf key1] bigChain toyHash_digest (.int 400) (fun c h => by cases h) ⟨some ⟨false, 400, 0⟩⟩ (by decide +kernel)
      hover (funded_means _ (by decide)) 1000 rfl (List.replicate 32 7) (.uh (addrOf key2)) (addrOf key2) ⟨rfl, by decide +kernel⟩ hf
      (.int 1600000000) 1600000000 ⟨.inl rfl, by decide⟩ (by decide) .none [] rfl (by decide)).1,
    (C138_participates_partial fundedSwap (explorerOf bigList) [addrOf key1] bigChain (.int 400) (fun c h => by cases h) ⟨some ⟨false, 400, 0⟩⟩ (by decide +kernel)
      hover (funded_means _ (by decide)) 1000 rfl (.bytes (toyHash [1])) (toyHash [1]) ⟨rfl, .inr rfl⟩ (.uh (addrOf key2)) (addrOf key2) ⟨rfl, by decide +kernel⟩ hf
      (.int 1600000000) 1600000000 ⟨.inl rfl, by decide⟩ (by decide) .none [] rfl (by decide)).1⟩

/-- **C138** (from creation to the end). A wallet that owns the amount and the fee initiates a swap: unless the network does not confirm it, the contract is returned, with the one
transaction that was submitted; the network asks for it, and on any chain that takes it the contract exists as asked for and can be taken out: by the
receiver with the secret, and by the sender once the time is over. -/
theorem C138_swap_partial (W : SwapWorld) (C : Client) (own : List UnlockHash) (S : ChainState) (hs : Digest32 W.sha) (amt : CVal) (legal : ∀ c, amt = .cur c → GoodCurrency c)
    (a : Currency) (ha : Currency.set amt = .ok a) (over : amount W.fee < amount a) (means : Means W.toWorld C own S (amount a)) (now : Int) (clock : W.chainTime = .ok now)
    (secret : Bytes) (r : Recipient) (u : UnlockHash) (party : PartyOf W.H r u) (fits : HashFits u.hash) (time : LockVal) (T : Int) (until_ : RefundAt time T) (word : T < 2 ^ 64)
    (data : DataArg) (b : Bytes) (hd : payload data = some b) (hdl : b.length ≤ 83)
    (calm : ∀ w t, W.balance = .ok w → t ∈ (W.initiate secret r amt time .none .none data true).posted → ¬ Trouble W.toWorld w t) :
    ∃ c t, (W.initiate secret r amt time .none .none data true).result = .ok (c, t, true) ∧ (W.initiate secret r amt time .none .none data true).posted = [t] ∧
      Succeeds W.toWorld S (W.initiate secret r amt time .none .none data true) ∧
      ∀ S', Accepts S t S' → (∀ co, FirstOutput S' co → NetworkOutputId W.H t 0 co.id) → ∃ co, Held W S' r amt (W.sha secret) time c co := by
  obtain ⟨⟨t, ht, hv, hids⟩, hr⟩ := C138_initiates_partial W C own S hs amt legal a ha over means now clock secret r u party fits time T until_ word data b hd hdl
  obtain ⟨c, t', hres⟩ := hr calm
  obtain ⟨_, _, h3⟩ := (C88_returned W secret .none r amt time .none .none data true).1 c t' true hres
  have e : t' = t := by rw [ht] at h3; simpa using h3.symm
  subst e
  exact ⟨c, t', hres, ht, ⟨t', ht, hv, hids⟩, fun S' taken named => C138_initiated_partial W C own S S' means.informed hs secret r amt legal time .none .none data c t' hres taken named⟩

/-- Nothing goes wrong after this transaction is submitted. -/
def calmlyTaken (W : World) (t : Tx) : Bool :=
  (W.put t).isOk && W.addresses.isOk && (t.idInput W.H).isOk && decide (t.coinOutputs.length < 2 ^ 64) &&
    (t.coinOutputs ++ (t.coinInputs.getD []).map CoinInput.parentOutput).all fun co =>
      match co.condition.unlockhash W.H with
      | .ok u => u.type != 3
      | .error _ => false

theorem calm_of {W : World} {w : Wallets} {t : Tx} (h : calmlyTaken W t = true) : ¬ Trouble W w t := by
  simp only [calmlyTaken, Bool.and_eq_true, List.all_eq_true, decide_eq_true_eq] at h
  obtain ⟨⟨⟨⟨h1, h2⟩, h3⟩, h4⟩, h5⟩ := h
  have hco : ∀ co, Concerns t co → ∃ u, co.condition.unlockhash W.H = .ok u ∧ u.type ≠ 3 := by
    intro co hc
    have hm : co ∈ t.coinOutputs ++ (t.coinInputs.getD []).map CoinInput.parentOutput := by
      cases hc with
      | creates h => exact List.mem_append_left _ h
      | spends l ci hl h hp => exact List.mem_append_right _ (List.mem_map.2 ⟨ci, by rw [hl]; exact h, hp⟩)
    have := h5 co hm
    split at this
    · next u hu => exact ⟨u, hu, by simpa using this⟩
    · cases this
  intro ht
  cases ht with
  | put e h => rw [h] at h1; cases h1
  | addresses e h => rw [h] at h2; cases h2
  | noId e h => rw [h] at h3; cases h3
  | tooMany h => omega
  | noAddress co e hc h => obtain ⟨u, hu, _⟩ := hco co hc; rw [hu] at h; cases h
  | notMulti co u hc hu h6 _ => obtain ⟨v, hv, hn⟩ := hco co hc; rw [hu] at hv; cases hv; exact hn h6
  | unknownMulti co u hc hu h6 _ => obtain ⟨v, hv, hn⟩ := hco co hc; rw [hu] at hv; cases hv; exact hn h6

/-- The wallet of `fundedWorld`, from creation to the end: the chain can take the transaction. -/
example : ∃ c t S', (fundedSwap.initiate (List.replicate 32 7) (.uh (addrOf key2)) (.int 400) (.int 1600000000) .none .none .none true).result = .ok (c, t, true) ∧
    Accepts bigChain t S' :=
  have hall : (fundedSwap.initiate (List.replicate 32 7) (.uh (addrOf key2)) (.int 400) (.int 1600000000) .none .none .none true).posted.all
      (fun t => calmlyTaken fundedWorld t && decide (t.coinOutputs.length = 2)) = true := by decide +kernel
  have hover : amount liveBots.fee < amount ⟨some ⟨false, 400, 0⟩⟩ := by decide +kernel
  have hf : HashFits (addrOf key2).hash := by show (addrOf key2).hash.value.length ≤ 32; decide +kernel
  have ⟨c, t, h1, h2, ⟨t', h3, _, h4⟩, _⟩ := C138_swap_partial fundedSwap (explorerOf bigList) [addrOf key1] bigChain toyHash_digest (.int 400) (fun c h => by cases h)
    ⟨some ⟨false, 400, 0⟩⟩ (by decide +kernel) hover (funded_means _ (by decide)) 1000 rfl (List.replicate 32 7) (.uh (addrOf key2)) (addrOf key2) ⟨rfl, by decide +kernel⟩ hf
    (.int 1600000000) 1600000000 ⟨.inl rfl, by decide⟩ (by decide) .none [] rfl (by decide)
    (fun w t _ ht => calm_of (Bool.and_eq_true _ _ ▸ List.all_eq_true.1 hall t ht).1)
  have e : t' = t := by rw [h2] at h3; simpa using h3.symm
  have hl : t.coinOutputs.length = 2 := by
    have := List.all_eq_true.1 hall t (by rw [h2]; simp)
    simp only [Bool.and_eq_true, decide_eq_true_eq] at this
    exact this.2
  have ⟨S', h5⟩ := h4 [⟨List.replicate 32 201⟩, ⟨List.replicate 32 202⟩] (by rw [e, hl]; rfl) (by decide) (fresh_of_check (by decide +kernel))
  ⟨c, t, S', h1, e ▸ h5⟩

/-- **C138** (from joining to the end). The same for `participate`. -/
theorem C138_joined_swap_partial (W : SwapWorld) (C : Client) (own : List UnlockHash) (S : ChainState) (amt : CVal) (legal : ∀ c, amt = .cur c → GoodCurrency c)
    (a : Currency) (ha : Currency.set amt = .ok a) (over : amount W.fee < amount a) (means : Means W.toWorld C own S (amount a)) (now : Int) (clock : W.chainTime = .ok now)
    (hash : BVal) (h : Bytes) (gives : Gives hash h) (r : Recipient) (u : UnlockHash) (party : PartyOf W.H r u) (fits : HashFits u.hash) (time : LockVal) (T : Int)
    (until_ : RefundAt time T) (word : T < 2 ^ 64) (data : DataArg) (b : Bytes) (hd : payload data = some b) (hdl : b.length ≤ 83)
    (calm : ∀ w t, W.balance = .ok w → t ∈ (W.participate r amt hash time .none .none data true).posted → ¬ Trouble W.toWorld w t) :
    ∃ c t, (W.participate r amt hash time .none .none data true).result = .ok (c, t, true) ∧ (W.participate r amt hash time .none .none data true).posted = [t] ∧
      Succeeds W.toWorld S (W.participate r amt hash time .none .none data true) ∧
      ∀ S', Accepts S t S' → (∀ co, FirstOutput S' co → NetworkOutputId W.H t 0 co.id) → ∃ co, Held W S' r amt h time c co := by
  obtain ⟨⟨t, ht, hv, hids⟩, hr⟩ := C138_participates_partial W C own S amt legal a ha over means now clock hash h gives r u party fits time T until_ word data b hd hdl
  obtain ⟨c, t', hres⟩ := hr calm
  obtain ⟨_, _, h3⟩ := (C88_returned W [] hash r amt time .none .none data true).2 c t' true hres
  have e : t' = t := by rw [ht] at h3; simpa using h3.symm
  subst e
  refine ⟨c, t', hres, ht, ⟨t', ht, hv, hids⟩, fun S' taken named => ?_⟩
  obtain ⟨g, co, hg, hco⟩ := C138_participated_partial W C own S S' means.informed hash r amt legal time .none .none data c t' hres taken named
  have e : g = h := by
    have h1 := (gives_norm.1 hg).1
    rw [(gives_norm.1 gives).1] at h1
    exact (Except.ok.inj h1).symm
  subst e
  exact ⟨co, hco⟩

example : ∃ c t, (fundedSwap.participate (.uh (addrOf key2)) (.int 400) (.bytes (toyHash [1])) (.int 1600000000) .none .none .none true).result = .ok (c, t, true) :=
  have hall : (fundedSwap.participate (.uh (addrOf key2)) (.int 400) (.bytes (toyHash [1])) (.int 1600000000) .none .none .none true).posted.all (calmlyTaken fundedWorld) = true := by
    decide +kernel
  have hover : amount liveBots.fee < amount ⟨some ⟨false, 400, 0⟩⟩ := by decide +kernel
  have hf : HashFits (addrOf key2).hash := by show (addrOf key2).hash.value.length ≤ 32; decide +kernel
  have ⟨c, t, h1, _⟩ := C138_joined_swap_partial fundedSwap (explorerOf bigList) [addrOf key1] bigChain (.int 400) (fun c h => by cases h) ⟨some ⟨false, 400, 0⟩⟩ (by decide +kernel)
      hover (funded_means _ (by decide)) 1000 rfl (.bytes (toyHash [1])) (toyHash [1]) ⟨rfl, .inr rfl⟩ (.uh (addrOf key2)) (addrOf key2) ⟨rfl, by decide +kernel⟩ hf
      (.int 1600000000) 1600000000 ⟨.inl rfl, by decide⟩ (by decide) .none [] rfl (by decide) (fun w t _ ht => calm_of (List.all_eq_true.1 hall t ht))
  ⟨c, t, h1⟩

end TF.Props
