import Verif.Props.Spendable
import Verif.Props.LiveBots
import Verif.Spec.Means
/-! # C136 for the other operations that pay -/
namespace TF.Props
open TF TF.Spec

theorem own_means {W : World} {C : Client} {own : List UnlockHash} {S : ChainState} {n : Nat} (h : Means W C own S n) :
    ∃ w, CanPay W w W.keys n .none .none ∧ ∀ co, Eligible W.H w .none co → Unlockable W co.condition := by
  have hi := h.informed
  obtain ⟨w, hw⟩ := h.readable
  obtain ⟨coins, nodup, few, enough, owned⟩ := h.coins
  have ho := hi.chain
  obtain ⟨info, hh, ht, hb⟩ := ho.balance w hw
  have hk : KnowsChain w.base info := informed_knows hi hb
  have hmem := (base_members hi h.answering hw).2
  have heligible : ∀ co ∈ coins, Eligible W.H w .none co := by
    intro co hco
    obtain ⟨h1, h2, h3, h4⟩ := owned co hco
    obtain ⟨u, _, v, hv, _⟩ := id h3
    exact .personal v (unlocked_offered ho.lawful hh ht hk ((hmem co).2 ⟨⟨h1, h2⟩, h3⟩) h4) hv trivial
  have hgood := informed_good hi h.ordinary hw
  obtain ⟨u, hu, hp⟩ := h.primary
  refine ⟨w, ⟨hw, hgood, fun co hco => (hgood.ordinary co hco).2, hi.fee, ⟨(by rintro s (h | ⟨l, h, _⟩) <;> cases h), (by rintro s h; cases h),
    by intro u m h; exact absurd h (by simp [SingleSource])⟩, .inl fun _ h => absurd rfl h, ⟨coins, nodup, few, heligible, enough⟩,
    primary_refund (ho.personal u hu).2 hp (by intro x h; exact absurd h (by simp [SingleSource])) (by intro x m h; exact absurd h (by simp [SingleSource]))⟩, ?_⟩
  intro co hco
  cases hco with
  | personal x offered address _ =>
    have hc := (hmem co).1 ((spendable_sub _).subset offered)
    obtain ⟨⟨h1, h2⟩, y, hy, hat⟩ := hc
    exact own_unlockable (ho.personal y hy).1 (h.held y hy) hat (h.ordinary co h1 h2)
  | multi _ _ _ _ _ _ given _ => exact absurd rfl given

theorem means_succeed {W : World} {C : Client} {own : List UnlockHash} {S : ChainState} {n : Nat} (h : Means W C own S n) {o : Outcome (Tx × Bool)}
    (hpay : Paying W .none .none o) {t : Tx} (ht : o.posted = [t]) : Succeeds W S o := by
  have hi := h.informed
  have hvalid : ValidOn W S t := C120_valid_partial W C own S hi.chain hi.mints hi.withdrawals hi.fee hi.positive .none .none _ hpay t (by rw [ht]; simp)
  refine ⟨t, ht, hvalid, fun ids h1 h2 h3 => ?_⟩
  obtain ⟨l, _, hl, _⟩ := hvalid.inputs
  exact accepts_exists hi.chain.lawful t ids h1 h2 h3 l hl

theorem builderAdd_asked {W : World} {outs : List CoinOutput} {p : Recipient × CVal × LockVal} {v : Nat} {c : Condition} (hp : ∀ c, p.2.1 = .cur c → GoodCurrency c)
    (h : asked W.H p.1 p.2.1 p.2.2 = some (v, c)) : ∃ co, (W.builderAdd (some outs) p.1 p.2.1 p.2.2).1 = some (outs ++ [co]) ∧ pays co = (v, c) ∧ GoodCurrency co.value := by
  unfold asked at h
  split at h
  · rename_i a c' ha hc'
    split at h
    · rename_i hpos
      cases h
      have hg := currency_set_good hp ha
      have hpa : positiveAmount p.2.1 = .ok a := by
        unfold positiveAmount
        have : ¬ a.le zeroCur = true := by rw [le_amount hg good_zeroCur, amount_zeroCur]; omega
        simp only [ha, bind, Except.bind, if_neg this, pure, Except.pure]
      exact ⟨⟨a, c, ⟨[]⟩⟩, by simp only [World.builderAdd, hpa, hc'], rfl, hg⟩
    · cases h
  · cases h

theorem builder_asked {W : World} : ∀ (adds : List (Recipient × CVal × LockVal)) (l : List (Nat × Condition)) (outs : List CoinOutput),
    (∀ p ∈ adds, ∀ c, p.2.1 = .cur c → GoodCurrency c) → adds.map (fun p => asked W.H p.1 p.2.1 p.2.2) = l.map some →
    ∃ new : List CoinOutput, adds.foldl (fun b p => (W.builderAdd b p.1 p.2.1 p.2.2).1) (some outs) = some (outs ++ new) ∧ new.map pays = l ∧
      ∀ co ∈ new, GoodCurrency co.value
  | [], l, outs, _, h => by
    cases l with
    | nil => exact ⟨[], by simp, rfl, by simp⟩
    | cons _ _ => cases h
  | p :: adds, l, outs, hg, h => by
    cases l with
    | nil => cases h
    | cons x l =>
      obtain ⟨h1, h2⟩ := List.cons.inj h
      obtain ⟨co, e1, e2, e3⟩ := builderAdd_asked (W := W) (outs := outs) (hg p List.mem_cons_self) (v := x.1) (c := x.2) h1
      obtain ⟨new, k1, k2, k3⟩ := builder_asked adds l (outs ++ [co]) (fun q hq => hg q (List.mem_cons_of_mem _ hq)) h2
      refine ⟨co :: new, ?_, ?_, ?_⟩
      · rw [List.foldl_cons, e1, k1]; simp
      · rw [List.map_cons, e2, k2]
      · intro x hx
        rcases List.mem_cons.1 hx with rfl | hx
        · exact e3
        · exact k3 x hx

/-- **C136** for payments to several recipients at once. -/
theorem C136_builder_partial (W : World) (C : Client) (own : List UnlockHash) (S : ChainState) (l : List (Nat × Condition))
    (means : Means W C own S (l.map Prod.fst).sum) (adds : List (Recipient × CVal × LockVal)) (legal : ∀ p ∈ adds, ∀ c, p.2.1 = .cur c → GoodCurrency c)
    (hask : adds.map (fun p => asked W.H p.1 p.2.1 p.2.2) = l.map some) (few : l.length < 2 ^ 20) (fits : ∀ p ∈ l, ConditionFits p.2) (data : DataArg)
    (b : Bytes) (hd : payload data = some b) (hdl : b.length ≤ 83) :
    Succeeds W S (W.builderSend (adds.foldl (fun b p => (W.builderAdd b p.1 p.2.1 p.2.2).1) (some [])) .none .none data).2 := by
  obtain ⟨w, hc, hun⟩ := own_means means
  have hpos := means.informed.positive
  obtain ⟨outs, he, hl, hg⟩ := builder_asked (W := W) adds l [] legal hask
  have hpay := Paying.builder (W := W) (src := .none) (refund := .none) adds data legal
  rw [he, List.nil_append] at hpay ⊢
  have htot : total outs = (l.map Prod.fst).sum := by
    rw [← hl, List.map_map]
    rfl
  obtain ⟨_, hpost⟩ := C100_builder_send_partial W w outs .none .none data b means.informed.chain.digest means.keys hc.fee hc.balance hc.good
    (fun co hco => ⟨hg co hco, fits (pays co) (hl ▸ List.mem_map_of_mem hco)⟩) (by rw [← List.length_map (f := pays), hl]; exact few) (by omega)
    hc.source hc.simple (by rw [htot]; exact hc.affordable) hc.refunds hd hdl
  obtain ⟨t, ht⟩ := hpost hun
  exact means_succeed means hpay ht

/-- **C136** for coins sent to an ERC20 address. -/
theorem C136_erc20_partial (W : World) (C : Client) (own : List UnlockHash) (S : ChainState) (amt : CVal) (legal : ∀ c, amt = .cur c → GoodCurrency c) (a : Currency)
    (ha : Currency.set amt = .ok a) (hpos : 0 < amount a) (means : Means W C own S (amount a)) (addr : BVal) (ad : Bytes) (haddr : erc20New 20 addr = .ok ad) :
    Succeeds W S (W.erc20Send addr amt .none .none) := by
  obtain ⟨w, hc, hun⟩ := own_means means
  obtain ⟨_, hpost⟩ := C100_erc20_send_partial W w addr amt .none .none ad a means.informed.chain.digest means.keys hc.fee hc.balance hc.good legal ha hpos haddr
    hc.source hc.simple hc.affordable hc.refunds
  obtain ⟨t, ht⟩ := hpost hun
  exact means_succeed means (.erc20 addr amt legal) ht

/-- **C136** for the registration of an own address (10 TFT). -/
theorem C136_register_partial (W : World) (C : Client) (own : List UnlockHash) (S : ChainState) (means : Means W C own S (10 * 10^9))
    (filed : ∀ a k, W.keys.lookup a = some k → HasAddress W.H k a) (which : WhichKey) (k : PublicKey) (named : NamedReady W which W.keys k) :
    Succeeds W S (W.addressRegister which .none .none) := by
  obtain ⟨w, hc, hun⟩ := own_means means
  obtain ⟨_, hpost⟩ := C109_address_register_partial W w which .none .none W.keys k means.informed.chain.digest filed means.keys named hc
  obtain ⟨t, ht⟩ := hpost hun
  exact means_succeed means (.register which) ht

/-- **C136** for the registration of a 3Bot with an existing key. -/
theorem C136_record_new_partial (W : World) (C : Client) (own : List UnlockHash) (S : ChainState) (L : IpLib) (hL : LawfulIp L) (months : Int) (hm : 1 ≤ months ∧ months ≤ 24)
    (names : Option (List NameArg)) (addresses : Option (List NetArg)) (hgiven : names ≠ none ∨ addresses ≠ none) (ns : List BotName) (as : List NetAddr)
    (hns : Items 5 BotName.new names ns) (has : Items 10 (NetAddr.new L) addresses as) (hpl : GivenPlainly addresses)
    (means : Means W C own S (90 * 10^9 + monthlyPrice months.toNat + 50 * 10^9 * (ns.length - 1)))
    (filed : ∀ a k, W.keys.lookup a = some k → HasAddress W.H k a) (index : Int) (k : PublicKey) (at_ : KeyAtIndex W index k) :
    Succeeds W S (W.recordNew L months names addresses (some index) .none .none) := by
  obtain ⟨w, hc, hun⟩ := own_means means
  obtain ⟨_, hpost⟩ := C109_record_new_partial W w L months names addresses (some index) .none .none ns as W.keys k hL means.informed.chain.digest filed means.keys hm hgiven
    hns has hpl ⟨at_, rfl⟩ hc
  obtain ⟨t, ht⟩ := hpost hun
  exact means_succeed means (.recordNew L months names addresses (some index)) ht

/-- **C136** for the update of the record of an own 3Bot. -/
theorem C136_record_update_partial (W : World) (C : Client) (own : List UnlockHash) (S : ChainState) (L : IpLib) (hL : LawfulIp L) (id months : Int)
    (namesAdd namesRemove : Option (List NameArg)) (addrsAdd addrsRemove : Option (List NetArg)) (na nr : List BotName) (aa ar : List NetAddr)
    (hid : 0 < id ∧ id < 2^32) (hm : 0 ≤ months ∧ months ≤ 24)
    (hgiven : 1 ≤ months ∨ namesAdd ≠ none ∨ namesRemove ≠ none ∨ addrsAdd ≠ none ∨ addrsRemove ≠ none)
    (hna : Items 5 BotName.new namesAdd na) (hnr : Items 5 BotName.new namesRemove nr) (haa : Items 10 (NetAddr.new L) addrsAdd aa)
    (har : Items 10 (NetAddr.new L) addrsRemove ar) (hpa : GivenPlainly addrsAdd) (hpr : GivenPlainly addrsRemove) (k : PublicKey) (exp now : Int)
    (hrec : W.record id = .ok (k, exp)) (hnow : W.chainTime = .ok now) (hact : now < exp ∨ 1 ≤ months) (hkf : FullKey k)
    (own_bot : ∃ a, HasAddress W.H k a ∧ W.keys.lookup a ≠ none)
    (means : Means W C own S (monthlyPrice months.toNat + (if aa = [] ∧ ar = [] then 0 else 20 * 10^9) + 50 * 10^9 * na.length)) :
    Succeeds W S (W.recordUpdate L id months namesAdd namesRemove addrsAdd addrsRemove .none .none) := by
  obtain ⟨w, hc, hun⟩ := own_means means
  have hpos := means.informed.positive
  obtain ⟨_, hpost⟩ := C109_record_update_partial W w L id months namesAdd namesRemove addrsAdd addrsRemove .none .none na nr aa ar k exp now hL means.informed.chain.digest
    means.keys hid hm hgiven hna hnr haa har hpa hpr hrec hnow hact hkf hc (by omega)
  obtain ⟨t, ht⟩ := hpost hun own_bot
  exact means_succeed means (.recordUpdate L id months namesAdd namesRemove addrsAdd addrsRemove) ht

/-- **C136** for the transfer of names between two own 3Bots. -/
theorem C136_name_transfer_partial (W : World) (C : Client) (own : List UnlockHash) (S : ChainState) (sender receiver : Int) (names : Option (List NameArg)) (ns : List BotName)
    (ka kb : PublicKey) (ea eb now : Int) (hids : 0 < sender ∧ sender < 2^32 ∧ 0 < receiver ∧ receiver < 2^32)
    (hns : Items 5 BotName.new names ns) (hne : ns ≠ []) (hnow : W.chainTime = .ok now) (hra : W.record sender = .ok (ka, ea)) (hrb : W.record receiver = .ok (kb, eb))
    (hact : now < ea ∧ now < eb) (hfa : FullKey ka) (hfb : FullKey kb) (hdiff : ∀ a, HasAddress W.H ka a → ¬ HasAddress W.H kb a)
    (own_bots : ∀ k, k = ka ∨ k = kb → ∃ a, HasAddress W.H k a ∧ W.keys.lookup a ≠ none) (means : Means W C own S (50 * 10^9 * ns.length)) :
    Succeeds W S (W.nameTransfer sender receiver names .none .none) := by
  obtain ⟨w, hc, hun⟩ := own_means means
  obtain ⟨_, hpost⟩ := C109_name_transfer_partial W w sender receiver names .none .none ns ka kb ea eb now means.informed.chain.digest
    means.keys hids hns hne hnow hra hrb hact hfa hfb hdiff hc
  obtain ⟨t, ht⟩ := hpost hun own_bots
  exact means_succeed means (.nameTransfer sender receiver names) ht

/-! ## A wallet that owns 500 TFT -/

/-- 500 TFT, and their creation as explorers describe it. -/
def bigCoin : CoinOutput := ⟨⟨some ⟨false, 500000000000, -9⟩⟩, .unlockHash (addrOf key1), ⟨List.replicate 32 61⟩⟩
@[inherit_doc bigCoin] def entryBig : Json :=
  entryOf { coinOutputs := [⟨bigCoin.value, bigCoin.condition, ⟨[]⟩⟩], minerFees := [⟨some ⟨false, 1, 0⟩⟩] } ⟨List.replicate 32 62⟩ [] [bigCoin.id] 5 false
@[inherit_doc bigCoin] def bigList : List (UnlockHash × List Json × List UnlockHash) := [(addrOf key1, [entryBig], [])]
@[inherit_doc bigCoin] def bigChain : ChainState := ⟨historyTxs ((explorerOf bigList).unlockhashGet (.str ((addrOf key1).str toyHash))), 100, 1550000000⟩
/-- A wallet with both keys, 500 TFT and two 3Bots. -/
def fundedAt (C : Client) : World := { liveBots with balance := (onExplorer C).balance }
@[inherit_doc fundedAt] def fundedWorld : World := fundedAt (explorerOf bigList)

theorem fundedAt_informed {C : Client} {own : List UnlockHash} {S : ChainState} (h : Informed (onExplorer C) C own S) : Informed (fundedAt C) C own S :=
  ⟨⟨h.chain.hash, h.chain.digest, h.chain.personal, h.chain.balance, h.chain.lawful, h.chain.truthful⟩, h.mints, h.withdrawals, h.fee, h.positive⟩

theorem big_informed : Informed fundedWorld (explorerOf bigList) [addrOf key1] bigChain := by
  have hl : ∀ p ∈ bigList, CanonicalAddress p.1 := by
    intro p hp
    simp only [bigList, List.mem_cons, List.not_mem_nil, or_false] at hp
    rw [hp]; exact .inl (by decide +kernel)
  have m : noneIs mints bigList = true := by decide +kernel
  have n : noneIs withdraws bigList = true := by decide +kernel
  exact fundedAt_informed ⟨onChain_of hl (by decide +kernel) (by decide +kernel) rfl rfl, noMinting_of hl m _, noWithdrawals_of hl n _, ⟨rfl, by decide⟩, by decide⟩

theorem big_unspent : UnspentOn bigChain bigCoin := unspent_of (by decide +kernel) (by decide +kernel)

/-- It owns everything up to 499 TFT. -/
theorem funded_means (n : Nat) (hn : n ≤ 499 * 10 ^ 9) : Means fundedWorld (explorerOf bigList) [addrOf key1] bigChain n := by
  refine ⟨big_informed, answers_of (by decide +kernel), ⟨bots_keys.filed, bots_keys.full, bots_keys.sig⟩, ?_, ?_, ?_, ?_, ?_⟩
  · intro u hu
    rw [List.mem_singleton.1 hu]
    exact ⟨key1, show botKeys.lookup ((addrOf key1).str toyHash) = _ by decide +kernel⟩
  · exact ⟨addrOf key1, by simp, show UnlockHash.fromJson toyHash (.str ((addrOf key1).str toyHash)) = .ok (addrOf key1) by decide +kernel⟩
  · intro co h _
    have hd : ¬ HasAddress toyHash .default ((addrOf key1).str toyHash) := by
      rintro ⟨u, h1, h2⟩
      have : (PublicKey.default.unlockhash toyHash).map (·.str toyHash) ≠ .ok ((addrOf key1).str toyHash) := by decide +kernel
      apply this
      rw [h1]; exact congrArg Except.ok h2
    have hm : co.condition ∈ (chainOutputs bigChain).map (fun co => co.condition) := List.mem_map.2 ⟨co, mem_chainOutputs.2 h.1, rfl⟩
    have he : (chainOutputs bigChain).map (fun co => co.condition) = [.unlockHash (addrOf key1)] := by decide +kernel
    rw [he, List.mem_singleton] at hm
    rw [hm]
    exact hd
  · have h : fundedWorld.balance.isOk = true := by decide +kernel
    cases e : fundedWorld.balance with
    | ok w => exact ⟨w, rfl⟩
    | error x => rw [e] at h; cases h
  · refine ⟨[bigCoin], by decide, by decide, ?_, ?_⟩
    · have : 499 * 10 ^ 9 + amount fundedWorld.fee ≤ total [bigCoin] := by
        show 499 * 10 ^ 9 + amount liveBots.fee ≤ total [bigCoin]
        decide +kernel
      omega
    · intro co hco
      rw [List.mem_singleton.1 hco]
      exact ⟨big_unspent, rfl, ⟨addrOf key1, by simp, addrOf key1, rfl, rfl⟩, trivial⟩

/-- It can pay two recipients at once. -/
example : Succeeds fundedWorld bigChain (fundedWorld.builderSend
    ([(Recipient.uh (addrOf key2), CVal.str "3.9".toList, LockVal.none), (.none, .int 5, .none)].foldl (fun b p => (fundedWorld.builderAdd b p.1 p.2.1 p.2.2).1) (some [])) .none .none .none).2 :=
  C136_builder_partial fundedWorld (explorerOf bigList) [addrOf key1] bigChain [(39 * 10 ^ 8, .unlockHash (addrOf key2)), (5 * 10 ^ 9, .nil)] (funded_means _ (by decide))
    [(.uh (addrOf key2), .str "3.9".toList, .none), (.none, .int 5, .none)] (by
      intro p hp c h
      simp only [List.mem_cons, List.not_mem_nil, or_false] at hp
      rcases hp with rfl | rfl <;> cases h)
    (show [asked toyHash _ _ _, asked toyHash _ _ _] = _ by decide +kernel) (by decide) (by
      intro p hp
      simp only [List.mem_cons, List.not_mem_nil, or_false] at hp
      rcases hp with rfl | rfl
      · show HashFits _; decide +kernel
      · trivial) .none [] rfl (by decide)
/-- It can send coins to an ERC20 address. -/
example : Succeeds fundedWorld bigChain (fundedWorld.erc20Send (.bytes (List.replicate 20 7)) (.int 400) .none .none) :=
  C136_erc20_partial fundedWorld (explorerOf bigList) [addrOf key1] bigChain (.int 400) (fun c h => by cases h) ⟨some ⟨false, 400, 0⟩⟩ (by decide +kernel) (by decide)
    (funded_means _ (by decide)) (.bytes (List.replicate 20 7)) (List.replicate 20 7) (by decide +kernel)
/-- It can register its second address. -/
example : Succeeds fundedWorld bigChain (fundedWorld.addressRegister (.uh (addrOf key2)) .none .none) :=
  C136_register_partial fundedWorld (explorerOf bigList) [addrOf key1] bigChain (funded_means _ (by decide)) bots_keys.filed (.uh (addrOf key2)) key2
    ⟨show botKeys.get? _ = _ by decide +kernel, rfl⟩

/-- It can register a 3Bot, -/
example : Succeeds fundedWorld bigChain (fundedWorld.recordNew toyIp 3 (some [.str "example".toList]) (some [.str "example.org".toList]) (some 0) .none .none) :=
  C136_record_new_partial fundedWorld (explorerOf bigList) [addrOf key1] bigChain toyIp toyIp_lawful 3 (by decide) (some [.str "example".toList]) (some [.str "example.org".toList])
    (.inl (by simp)) [⟨"example".toList⟩] [⟨.hostname, utf8 "example.org".toList⟩] ⟨by decide +kernel, by decide⟩ ⟨by decide +kernel, by decide⟩
    (fun l hl a ha x => by cases hl; rw [List.mem_singleton.mp ha]; simp) (funded_means _ (by decide +kernel)) bots_keys.filed 0 key1 ⟨_, _, rfl, by decide, rfl, by decide +kernel⟩
/-- update its record -/
example : Succeeds fundedWorld bigChain (fundedWorld.recordUpdate toyIp 1 2 (some [.str "example".toList]) none none (some [.str "example.org".toList]) .none .none) :=
  C136_record_update_partial fundedWorld (explorerOf bigList) [addrOf key1] bigChain toyIp toyIp_lawful 1 2 _ _ _ _ [⟨"example".toList⟩] [] [] [⟨.hostname, utf8 "example.org".toList⟩]
    (by decide) (by decide) (.inl (by decide)) ⟨by decide +kernel, by decide⟩ ⟨rfl, by decide⟩ ⟨rfl, by decide⟩ ⟨by decide +kernel, by decide⟩
    (fun l hl => by cases hl) (fun l hl a ha x => by cases hl; rw [List.mem_singleton.mp ha]; simp) key1 2000 1000 rfl rfl (.inl (by decide)) (show key1.hash.value.length = 32 from rfl)
    ⟨_, ⟨addrOf key1, by decide +kernel, rfl⟩, show botKeys.lookup _ ≠ none by decide +kernel⟩ (funded_means _ (by decide +kernel))
/-- and transfer a name from one of its 3Bots to the other. -/
example : Succeeds fundedWorld bigChain (fundedWorld.nameTransfer 1 2 (some [.str "example".toList]) .none .none) :=
  C136_name_transfer_partial fundedWorld (explorerOf bigList) [addrOf key1] bigChain 1 2 _ [⟨"example".toList⟩] key1 key2 2000 2000 1000 (by decide) ⟨by decide +kernel, by decide⟩ (by simp)
    rfl rfl rfl (by decide) (show key1.hash.value.length = 32 from rfl) (show key2.hash.value.length = 32 from rfl)
    (by
      rintro a ⟨u, h1, rfl⟩ ⟨u', h2, h3⟩
      have e1 : key1.unlockhash toyHash = .ok (addrOf key1) := by decide +kernel
      have e2 : key2.unlockhash toyHash = .ok (addrOf key2) := by decide +kernel
      have g1 := Except.ok.inj (e1.symm.trans h1)
      have g2 := Except.ok.inj (e2.symm.trans h2)
      rw [← g1, ← g2] at h3
      revert h3
      show (addrOf key2).str toyHash ≠ (addrOf key1).str toyHash
      decide +kernel)
    (by
      rintro k (rfl | rfl)
      · exact ⟨_, ⟨addrOf key1, by decide +kernel, rfl⟩, show botKeys.lookup _ ≠ none by decide +kernel⟩
      · exact ⟨_, ⟨addrOf key2, by decide +kernel, rfl⟩, show botKeys.lookup _ ≠ none by decide +kernel⟩) (funded_means _ (by decide))

end TF.Props
