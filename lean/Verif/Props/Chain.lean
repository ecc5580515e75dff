import Verif.Props.Answers
import Verif.Props.Bots
import Verif.Props.WalletOps
import Verif.Props.Deliver
import Verif.Props.Swap2
import Verif.Spec.Chain
import Mathlib.Data.List.Nodup
/-! # C120: what a wallet submits is valid on the chain -/
namespace TF.Props
open TF TF.Spec

/-! ## Histories told truly -/

theorem created_on {H : Bytes → Bytes} {C : Client} {S : ChainState} (ht : Truthful C S) {target : Recipient} {h : History} (hg : C.unlockhashGet target = .ok h)
    {a : Str} {co : CoinOutput} {c : Bool} (hc : CreatedIn H a h.txs co c) : CreatedOn S co := by
  obtain ⟨t, h1, _, h3, _⟩ := hc
  exact ⟨t, (ht target h hg).1 t h1, h3⟩

/-- The outputs of the history are described with their ids. -/
theorem created_full {H : Bytes → Bytes} {C : Client} {S : ChainState} (hl : LawfulChain S) (ht : Truthful C S) {target : Recipient} {h : History}
    (hg : C.unlockhashGet target = .ok h) (hn : ∀ t ∈ h.txs, ¬ IsWithdrawal t.tx) {a : Str} {co : CoinOutput} {c : Bool} (hc : CreatedIn H a h.txs co c) :
    Identified co := by
  obtain ⟨t, h1, _, h3, _⟩ := hc
  exact hl.full t ((ht target h hg).1 t h1) (hn t h1) co h3

theorem truthful_ids {C : Client} {S : ChainState} (hl : LawfulChain S) (ht : Truthful C S) {target target' : Recipient} {h h' : History}
    (hg : C.unlockhashGet target = .ok h) (hg' : C.unlockhashGet target' = .ok h') (hn : ∀ t ∈ h.txs, ¬ IsWithdrawal t.tx) {a a' : Str} {co co' : CoinOutput}
    {c c' : Bool} (hc : CreatedIn C.H a h.txs co c) (hc' : CreatedIn C.H a' h'.txs co' c') (e : co.id = co'.id) : co = co' ∧ c = c' := by
  have hf := created_full hl ht hg hn hc
  obtain ⟨t, h1, h2, h3, _⟩ := hc
  obtain ⟨t', k1, k2, k3, _⟩ := hc'
  obtain ⟨rfl, rfl⟩ := hl.ids t ((ht _ _ hg).1 t h1) t' ((ht _ _ hg').1 t' k1) co h3 co' k3 hf e
  refine ⟨rfl, ?_⟩
  rw [h2] at k2
  cases c <;> cases c' <;> simp_all

theorem truthful_coherent {C : Client} {S : ChainState} (hl : LawfulChain S) (ht : Truthful C S) {target : Recipient} {h : History}
    (hg : C.unlockhashGet target = .ok h) (hn : ∀ t ∈ h.txs, ¬ IsWithdrawal t.tx) : Coherent C.H (h.address.str C.H) h.txs := by
  refine ⟨fun co c co' c' h1 h2 e => truthful_ids hl ht hg hg hn h1 h2 e, ?_⟩
  intro t h1 ins h2 ci h3 co c h4 h5
  obtain ⟨u, k1, k2⟩ : AtAddress C.H (h.address.str C.H) co := by obtain ⟨_, _, _, _, h⟩ := h4; exact h
  exact ⟨u, by rw [hl.parents t ((ht _ _ hg).1 t h1) ins h2 ci h3 co (created_on ht hg h4) (created_full hl ht hg hn h4) h5]; exact k1, k2⟩

theorem truthful_unspent {C : Client} {S : ChainState} (ht : Truthful C S) {target : Recipient} {h : History} (hg : C.unlockhashGet target = .ok h)
    {co : CoinOutput} {c : Bool} (hu : Unspent C.H h co c) : UnspentOn S co := by
  have hc := created_on ht hg hu.1
  refine ⟨hc, ?_⟩
  rintro ⟨t, h1, h2⟩
  obtain ⟨_, _, _, _, hat⟩ := hu.1
  exact hu.2 ⟨t, (ht _ _ hg).2.1 t h1 (.inr ⟨co, hc, hat, h2⟩), h2⟩

/-! ## The balance as it is filed -/

/-- The texts of the multi-signature addresses the own histories mention. -/
def SharedText (C : Client) (own : List UnlockHash) (a : Str) : Prop := ∃ g, OwnHistory C own g ∧ ∃ u ∈ g.multisigs, a = u.str C.H

/-- What is kept while the balance is put together. -/
structure Assembled (C : Client) (own : List UnlockHash) (info : ChainInfo) (w : Wallets) : Prop where
  fo : Filed w.base.outputs
  fu : Filed w.base.unconf
  no : (w.base.outputs.map (·.1)).Nodup
  nu : (w.base.unconf.map (·.1)).Nodup
  names : (w.wallets.map (·.1)).Nodup
  each : ∀ p ∈ w.wallets, ∃ a h, SharedText C own a ∧ C.unlockhashGet (.str a) = .ok h ∧ h.balance C.H info = .ok (.multi p.2) ∧ p.2.address C.H = .ok p.1

theorem update_nodup {m o : OutMap} (hm : (m.map (·.1)).Nodup) : ((m.update o).map (·.1)).Nodup := by
  unfold OutMap.update
  induction o generalizing m with
  | nil => exact hm
  | cons p o ih => exact ih (OutMap.nodup_put hm)

theorem balance_filed {H : Bytes → Bytes} {h : History} {info : ChainInfo} {g : Balance} (hb : h.balance H info = .ok (.wallet g)) : Filed g.outputs ∧ Filed g.unconf := by
  unfold History.balance at hb
  by_cases ht : h.address.type = 3
  · rw [if_pos ht] at hb
    obtain ⟨m, _, hb⟩ := bind_ok hb
    cases m with
    | none => cases hb; exact ⟨by simp [Filed, Balance.withChain], by simp [Filed, Balance.withChain]⟩
    | some m => cases hb
  · rw [if_neg ht] at hb
    obtain ⟨x, hx, hb⟩ := bind_ok hb
    cases hb
    rw [personal_run hx]
    have := run_filed H (h.txs.flatMap (txReports H (h.address.str H)))
    exact ⟨this.fo, this.fu⟩

theorem balance_kind {H : Bytes → Bytes} {h : History} {info : ChainInfo} {b : AnyBalance} (hb : h.balance H info = .ok b) :
    (∃ g, b = .wallet g) ∨ (∃ m, b = .multi m) ∧ h.address.type = 3 := by
  unfold History.balance at hb
  by_cases ht : h.address.type = 3
  · rw [if_pos ht] at hb
    obtain ⟨m, _, hb⟩ := bind_ok hb
    cases m with
    | none => cases hb; exact .inl ⟨_, rfl⟩
    | some m => cases hb; exact .inr ⟨⟨_, rfl⟩, ht⟩
  · rw [if_neg ht] at hb
    obtain ⟨x, hx, hb⟩ := bind_ok hb
    cases hb
    exact .inl ⟨_, rfl⟩

theorem assembled_add {C : Client} {own : List UnlockHash} {info : ChainInfo} {w : Wallets} (ha : Assembled C own info w) {a : Str} {h : History} {g b' : AnyBalance}
    (hg : C.unlockhashGet (.str a) = .ok h) (hb : h.balance C.H info = .ok g) (hs : h.address.type = 3 → SharedText C own a)
    (hadd : AnyBalance.add C.H (.wallets w) (some g) = .ok b') : ∃ w', b' = .wallets w' ∧ Assembled C own info w' := by
  obtain ⟨w1, hw, hadd⟩ := bind_ok hadd
  cases hadd
  refine ⟨w1, rfl, ?_⟩
  rcases balance_kind hb with ⟨x, rfl⟩ | ⟨⟨m, rfl⟩, ht⟩
  · obtain ⟨mb, hmb, hw⟩ := bind_ok hw
    cases hw
    obtain ⟨e1, e2⟩ := merge_fields hmb
    obtain ⟨f1, f2⟩ := balance_filed hb
    exact ⟨by rw [e1]; exact filed_update ha.fo f1, by rw [e2]; exact filed_update ha.fu f2, by rw [e1]; exact update_nodup ha.no,
      by rw [e2]; exact update_nodup ha.nu, ha.names, ha.each⟩
  · obtain ⟨n, hn, hw⟩ := bind_ok hw
    unfold Wallets.mergeMulti at hw
    cases hget : w.wallets.get? n with
    | some x => rw [hget] at hw; cases hw
    | none =>
      rw [hget] at hw
      cases hw
      refine ⟨ha.fo, ha.fu, ha.no, ha.nu, ?_, ?_⟩
      · simp only [put_new hget, List.map_append, List.map_cons, List.map_nil]
        rw [List.nodup_append]
        refine ⟨ha.names, by simp, ?_⟩
        intro x hx y hy
        rw [List.mem_singleton.1 hy]
        rintro rfl
        exact MultiMap.get_none hget hx
      · intro p hp
        simp only [put_new hget, List.mem_append, List.mem_singleton] at hp
        rcases hp with hp | rfl
        · exact ha.each p hp
        · exact ⟨a, h, hs ht, hg, hb, hn⟩

theorem assembled_personal {C : Client} {own : List UnlockHash} (info : ChainInfo) :
    ∀ (l : List UnlockHash) (_ : ∀ u ∈ l, u ∈ own ∧ u.type = 1) (w : Wallets) (b : AnyBalance) (ms : List Str), Assembled C own info w →
      C.addPersonal info (l.map fun u => u.str C.H) (.wallets w) = .ok (b, ms) →
      ∃ w', b = .wallets w' ∧ Assembled C own info w' ∧ ∀ a ∈ ms, SharedText C own a := by
  intro l
  induction l with
  | nil => intro _ w b ms ha h; cases h; exact ⟨w, rfl, ha, by simp⟩
  | cons u l ih =>
    intro hl w b ms ha h
    rw [List.map_cons, Client.addPersonal] at h
    have i1 := ih (fun x hx => hl x (List.mem_cons_of_mem _ hx))
    cases hu : C.unlockhashGet (.str (u.str C.H)) with
    | error e =>
      rw [hu] at h
      by_cases he : e = .explorerNoContent
      · subst he; exact i1 w b ms ha h
      · exfalso
        cases e <;> first | exact he rfl | cases h
    | ok g =>
      rw [hu] at h
      obtain ⟨gb, hg, h⟩ := bind_ok h
      obtain ⟨b1, hadd, h⟩ := bind_ok h
      obtain ⟨⟨b2, ms2⟩, hrest, h⟩ := bind_ok h
      cases h
      obtain ⟨hin, ht⟩ := hl u List.mem_cons_self
      obtain ⟨w1, rfl, ha1⟩ := assembled_add ha hu hg (fun e => by rw [history_type (.inl ht) hu, ht] at e; exact absurd e (by decide)) hadd
      obtain ⟨w2, e1, ha2, hms⟩ := i1 w1 _ _ ha1 hrest
      refine ⟨w2, e1, ha2, ?_⟩
      intro a hm
      rcases List.mem_append.1 hm with hm | hm
      · obtain ⟨v, hv, rfl⟩ := List.mem_map.1 hm
        exact ⟨g, ⟨u, hin, hu⟩, v, hv, rfl⟩
      · exact hms a hm

theorem assembled_multi {C : Client} {own : List UnlockHash} (info : ChainInfo) :
    ∀ (l : List Str) (_ : ∀ a ∈ l, SharedText C own a) (w : Wallets) (b : AnyBalance), Assembled C own info w →
      C.addMulti info l (.wallets w) = .ok b → ∃ w', b = .wallets w' ∧ Assembled C own info w' := by
  intro l
  induction l with
  | nil => intro _ w b ha h; cases h; exact ⟨w, rfl, ha⟩
  | cons a l ih =>
    intro hl w b ha h
    rw [Client.addMulti] at h
    have i1 := ih (fun x hx => hl x (List.mem_cons_of_mem _ hx))
    cases hu : C.unlockhashGet (.str a) with
    | error e =>
      rw [hu] at h
      by_cases he : e = .explorerNoContent
      · subst he; exact i1 w b ha h
      · exfalso
        cases e <;> first | exact he rfl | cases h
    | ok g =>
      rw [hu] at h
      obtain ⟨gb, hg, h⟩ := bind_ok h
      obtain ⟨b1, hadd, h⟩ := bind_ok h
      obtain ⟨w1, rfl, ha1⟩ := assembled_add ha hu hg (fun _ => hl a List.mem_cons_self) hadd
      exact i1 w1 b ha1 h

theorem assembled_balance {C : Client} {own : List UnlockHash} (h1 : ∀ u ∈ own, u.type = 1) {info : ChainInfo} {w : Wallets}
    (hb : C.walletBalance (.ok info) (own.map fun u => u.str C.H) = .ok (.wallets w)) : Assembled C own info w := by
  unfold Client.walletBalance at hb
  obtain ⟨i, hi, hb⟩ := bind_ok hb
  cases hi
  obtain ⟨⟨b1, ms⟩, hp, hb⟩ := bind_ok hb
  obtain ⟨b2, hm, hb⟩ := bind_ok hb
  have h0 : Assembled C own info {} := ⟨by simp [Filed], by simp [Filed], by simp, by simp, by simp, by simp⟩
  obtain ⟨w1, rfl, ha1, hms⟩ := assembled_personal info own (fun u hu => ⟨hu, h1 u hu⟩) {} b1 ms h0 hp
  obtain ⟨w2, rfl, ha2⟩ := assembled_multi info ms hms w1 b2 ha1 hm
  cases hb
  exact ⟨ha2.fo, ha2.fu, ha2.no, ha2.nu, ha2.names, ha2.each⟩

/-! ## What such a wallet offers -/

theorem lock_passed {S : ChainState} {c : Condition} (h : lockedCheck c.lock S.height S.time = false) : LockPassed S c := by
  cases c with
  | lockTime v c =>
    have h : lockedCheck v S.height S.time = false := h
    have := (C27_lock_boundary v S.height S.time).not.1 (by rw [h]; simp)
    show if v < 500000000 then v ≤ S.height else v ≤ S.time
    by_cases hv : v < 500000000
    · rw [if_pos hv] at this ⊢; omega
    · rw [if_neg hv] at this ⊢; omega
  | _ => trivial

theorem offered_unlocked {S : ChainState} (hl : LawfulChain S) {info : ChainInfo} (hh : info.height = S.height) (ht : info.time = S.time) {b : Balance}
    (hk : KnowsChain b info) {co : CoinOutput} (hb : co ∈ spendable b) : co ∈ counted b ∧ LockPassed S co.condition := by
  refine ⟨(spendable_sub b).subset hb, lock_passed ?_⟩
  obtain ⟨k1, k2, _⟩ := hk
  have h1 : 0 < b.time := by rw [k1, ht]; exact hl.started.2
  have h2 : 0 < b.height := by rw [k2, hh]; exact hl.started.1
  have hk : b.knowsChain = true := by simp [Balance.knowsChain, h1, h2]
  unfold spendable Balance.available Balance.unconfAvailable at hb
  rw [if_pos hk, if_pos hk, ← List.filter_append, List.mem_filter] at hb
  have := hb.2
  simp only [Balance.isLocked, Bool.not_eq_true'] at this
  rw [← hh, ← ht, ← k1, ← k2]
  simpa using this

/-- What the theorem needs to know of an offered output. -/
def Fine (S : ChainState) (co : CoinOutput) : Prop := Identified co ∧ UnspentOn S co ∧ LockPassed S co.condition

theorem text_inj {H : Bytes → Bytes} (hH : Digest32 H) {u v : UnlockHash} (hu : CanonicalAddress u) (hv : CanonicalAddress v) (e : u.str H = v.str H) : u = v := by
  have h1 := (C22_address_roundtrip H hH u hu).2
  rw [e, (C22_address_roundtrip H hH v hv).2] at h1
  cases h1
  rfl

theorem at_inj {H : Bytes → Bytes} {a b : Str} {co : CoinOutput} (h1 : AtAddress H a co) (h2 : AtAddress H b co) : a = b := by
  obtain ⟨u, e1, rfl⟩ := h1
  obtain ⟨v, e2, rfl⟩ := h2
  rw [e1] at e2
  cases e2
  rfl

/-- Where an output the wallet offers comes from: a history of an own address, or of the multi-signature address under whose text it is filed. -/
theorem offered_spec {W : World} {C : Client} {own : List UnlockHash} {S : ChainState} (ho : OnChain W C own S) (hm : NoMinting C own) (hnw : NoWithdrawals C own)
    {w : Wallets} (hw : W.balance = .ok w) :
    (∀ co ∈ spendable w.base, Fine S co ∧ ∃ u ∈ own, u.type = 1 ∧ CanonicalAddress u ∧ AtAddress C.H (u.str C.H) co) ∧
    ((spendable w.base).map (·.id)).Nodup ∧ (w.wallets.map (·.1)).Nodup ∧
    ∃ info, ∀ p ∈ w.wallets, ∃ (u : UnlockHash) (h : History), (u.type = 3 ∧ CanonicalAddress u ∧ C.unlockhashGet (.str (u.str C.H)) = .ok h) ∧
      p.2.address C.H = .ok p.1 ∧ h.balance C.H info = .ok (.multi p.2) ∧
      (∀ co ∈ spendable p.2.base, Fine S co ∧ AtAddress C.H (u.str C.H) co) ∧ ((spendable p.2.base).map (·.id)).Nodup := by
  obtain ⟨info, hh, ht, hb⟩ := ho.balance w hw
  have h1 : ∀ u ∈ own, u.type = 1 := fun u hu => (ho.personal u hu).1
  have ha := assembled_balance h1 hb
  have hH : Digest32 C.H := by rw [ho.hash]; exact ho.digest
  have hcoh : CoherentAll C (OwnHistory C own) := by
    refine ⟨?_, ?_⟩
    · rintro h ⟨u, hu, hg⟩; exact truthful_coherent ho.lawful ho.truthful hg (hnw h (.inl ⟨u, hu, hg⟩))
    · rintro h h' co c co' c' ⟨u, hu, hg⟩ ⟨u', _, hg'⟩ k1 k2 e
      exact truthful_ids ho.lawful ho.truthful hg hg' (hnw h (.inl ⟨u, hu, hg⟩)) k1 k2 e
  obtain ⟨w', e, hk, g1, g2, _, _⟩ := C96_balance_partial C own h1 info (.wallets w) hb hcoh (by
    rintro h hs
    refine ⟨?_, hm h hs⟩
    have hn := hnw h (.inr hs)
    obtain ⟨_, _, u, _, hg⟩ := hs
    exact truthful_coherent ho.lawful ho.truthful hg hn)
  cases e
  refine ⟨?_, ?_, ha.names, info, ?_⟩
  · intro co hco
    obtain ⟨k1, k2⟩ := offered_unlocked ho.lawful hh ht hk hco
    have : ∃ c h, OwnHistory C own h ∧ Unspent C.H h co c := by
      rcases List.mem_append.1 k1 with k1 | k1
      · obtain ⟨h, x, y⟩ := (g1 co).1 k1; exact ⟨_, h, x, y⟩
      · obtain ⟨h, x, y⟩ := (g2 co).1 k1; exact ⟨_, h, x, y⟩
    obtain ⟨c, h, ⟨u, hu, hg⟩, hun⟩ := this
    have hid := created_full ho.lawful ho.truthful hg (hnw h (.inl ⟨u, hu, hg⟩)) hun.1
    refine ⟨⟨hid, truthful_unspent ho.truthful hg hun, k2⟩, u, hu, (ho.personal u hu).1, (ho.personal u hu).2, ?_⟩
    obtain ⟨_, _, _, _, hat⟩ := hun.1
    rw [history_address hH (ho.personal u hu).2 hg] at hat
    exact hat
  · refine ((spendable_sub w.base).map _).nodup ?_
    unfold counted
    rw [List.map_append, ha.fo.values, ha.fu.values, List.nodup_append]
    refine ⟨ha.no, ha.nu, ?_⟩
    rintro x hx y hy rfl
    rw [← ha.fo.values] at hx
    rw [← ha.fu.values] at hy
    obtain ⟨co, hco, rfl⟩ := List.mem_map.1 hx
    obtain ⟨co', hco', e⟩ := List.mem_map.1 hy
    obtain ⟨h, ho1, hu1⟩ := (g1 co).1 hco
    obtain ⟨h', ho2, hu2⟩ := (g2 co').1 hco'
    exact absurd (hcoh.ids h h' co true co' false ho1 ho2 hu1.1 hu2.1 e.symm).2 (by decide)
  · intro p hp
    obtain ⟨a, h, ⟨g, hown, u, hu, rfl⟩, hg, hbal, hadr⟩ := ha.each p hp
    obtain ⟨v, hv, hgv⟩ := hown
    have hcan := (ho.truthful _ _ hgv).2.2 u hu
    have hu3 : u.type = 3 := by
      obtain ⟨_, _, _, _, _, _, h4⟩ := unlockhashGet_ok hgv
      obtain ⟨_, _, _, _, _, _, h9, _⟩ := readHistory_ok h4
      exact h9 u hu
    have haddr := history_address hH hcan hg
    have hsh : SharedHistory C own h := ⟨g, ⟨v, hv, hgv⟩, u, hu, hg⟩
    have hn := hnw h (.inr hsh)
    obtain ⟨b, hbase, hbo, hkn⟩ := C63_multi_partial C _ h hg (by rw [haddr, hu3]) (truthful_coherent ho.lawful ho.truthful hg hn) (hm h hsh) info _ hbal
    have : b = p.2.base := by simpa [baseOf] using hbase.symm
    subst this
    refine ⟨u, h, ⟨hu3, hcan, hg⟩, hadr, hbal, ?_, ((spendable_sub _).map _).nodup hbo.once⟩
    intro co hco
    obtain ⟨k1, k2⟩ := offered_unlocked ho.lawful hh ht hkn hco
    have : ∃ c, Unspent C.H h co c := by
      rcases List.mem_append.1 k1 with k1 | k1
      · exact ⟨_, (hbo.confirmed co).1 k1⟩
      · exact ⟨_, (hbo.unconfirmed co).1 k1⟩
    obtain ⟨c, hun⟩ := this
    refine ⟨⟨created_full ho.lawful ho.truthful hg hn hun.1, truthful_unspent ho.truthful hg hun, k2⟩, ?_⟩
    obtain ⟨_, _, _, _, hat⟩ := hun.1
    rw [haddr] at hat
    exact hat

theorem noSwap_of {H : Bytes → Bytes} (hH : Digest32 H) {u : UnlockHash} (ht : u.type = 1 ∨ u.type = 3) (hc : CanonicalAddress u) {co : CoinOutput}
    (h : AtAddress H (u.str H) co) : NoSwap co.condition := by
  have key : ∀ (v : UnlockHash) a b hs l, (Condition.atomicSwap a b hs l).unlockhash H = .ok v → v.type = 2 := by
    intro v a b hs l e
    unfold Condition.unlockhash at e
    obtain ⟨d, _, e⟩ := bind_ok e
    obtain ⟨d', _, e⟩ := bind_ok e
    cases e
    rfl
  obtain ⟨v, hv, e⟩ := h
  intro a b hs l hun
  have h2 : v.type = 2 := by
    cases hcc : co.condition with
    | lockTime n c =>
      rw [hcc] at hun hv
      exact key v a b hs l (by rw [← hun]; exact hv)
    | _ => rw [hcc] at hun hv; first | cases hun; done | (cases hun; exact key v _ _ _ _ hv)
  have h3 : UnlockHash.fromJson H (.str (v.str H)) = .ok u := by rw [e]; exact (C22_address_roundtrip H hH u hc).2
  have := (C23_accepted_address_partial H _ _ (show UnlockHash.fromStr H (v.str H) = .ok u from h3)).2.1
  have h4 : (v.str H).take 2 = toHex [v.type] := by
    unfold UnlockHash.str
    rw [List.append_assoc, List.take_append_of_le_length (by rw [toHex_length]; simp)]
    exact List.take_of_length_le (by rw [toHex_length]; simp)
  rw [h4, h2] at this
  rcases ht with ht | ht <;> rw [ht] at this <;> exact absurd this (by decide)

/-- No output is offered twice, and all are fine. -/
theorem offered_all {W : World} {C : Client} {own : List UnlockHash} {S : ChainState} (ho : OnChain W C own S) (hm : NoMinting C own) (hnw : NoWithdrawals C own)
    {w : Wallets} (hw : W.balance = .ok w) :
    (∀ co ∈ walletsSpendable w, Fine S co ∧ NoSwap co.condition) ∧ ((walletsSpendable w).map (·.id)).Nodup ∧ SaneOutputs (walletsSpendable w) := by
  have hH : Digest32 C.H := by rw [ho.hash]; exact ho.digest
  obtain ⟨g1, g2, g3, info, g4⟩ := offered_spec ho hm hnw hw
  have same : ∀ co co' : CoinOutput, Fine S co → Fine S co' → co.id = co'.id → co = co' := by
    rintro co co' ⟨f1, ⟨⟨t, h1, h2⟩, _⟩, _⟩ ⟨f2, ⟨⟨t', k1, k2⟩, _⟩, _⟩ e
    exact (ho.lawful.ids t h1 t' k1 co h2 co' k2 f1 e).2
  have hall : ∀ co ∈ walletsSpendable w, Fine S co ∧ NoSwap co.condition := by
    intro co hco
    rcases List.mem_append.1 hco with h | h
    · obtain ⟨h1, u, _, h2, h3, h4⟩ := g1 co h
      exact ⟨h1, noSwap_of hH (.inl h2) h3 h4⟩
    · obtain ⟨p, hp, h⟩ := List.mem_flatMap.1 h
      obtain ⟨u, _, ⟨h2, h3, _⟩, _, _, h5, _⟩ := g4 p hp
      exact ⟨(h5 co h).1, noSwap_of hH (.inr h2) h3 (h5 co h).2⟩
  have hnd : ((walletsSpendable w).map (·.id)).Nodup := by
    unfold walletsSpendable
    rw [List.map_append, List.nodup_append]
    refine ⟨g2, ?_, ?_⟩
    · rw [List.map_flatMap, List.nodup_flatMap]
      refine ⟨fun p hp => ?_, ?_⟩
      · obtain ⟨_, _, _, _, _, _, h⟩ := g4 p hp; exact h
      · have := List.pairwise_map.1 (List.nodup_iff_pairwise_ne.1 g3)
        refine this.imp_of_mem ?_
        intro p q hp hq hne x hx hy
        obtain ⟨co, hco, rfl⟩ := List.mem_map.1 hx
        obtain ⟨co', hco', e⟩ := List.mem_map.1 hy
        obtain ⟨u, h, ⟨k1, k2, k3⟩, k4, k5, k6, _⟩ := g4 p hp
        obtain ⟨u', h', ⟨l1, l2, l3⟩, l4, l5, l6, _⟩ := g4 q hq
        obtain ⟨f1, a1⟩ := k6 co hco
        obtain ⟨f2, a2⟩ := l6 co' hco'
        obtain rfl := same co co' f1 f2 e.symm
        have htx := at_inj a1 a2
        rw [htx] at k3
        rw [k3] at l3
        cases l3
        rw [k5] at l5
        have hpq : p.2 = q.2 := by simpa using l5
        rw [hpq, l4] at k4
        exact hne (by simpa using k4.symm)
    · rintro x hx y hy rfl
      obtain ⟨co, hco, rfl⟩ := List.mem_map.1 hx
      obtain ⟨co', hco', e⟩ := List.mem_map.1 hy
      obtain ⟨p, hp, hco'⟩ := List.mem_flatMap.1 hco'
      obtain ⟨f1, u, _, k1, k2, a1⟩ := g1 co hco
      obtain ⟨u', h', ⟨l1, l2, l3⟩, _, _, l6, _⟩ := g4 p hp
      obtain ⟨f2, a2⟩ := l6 co' hco'
      obtain rfl := same co co' f1 f2 e.symm
      have := text_inj hH k2 l2 (at_inj a1 a2)
      rw [this, l1] at k1
      exact absurd k1 (by decide)
  refine ⟨hall, hnd, fun co hco => ho.lawful.amounts co (hall co hco).1.2.1.1, ?_⟩
  exact ho.lawful.supply _ (hnd.of_map _) fun co hco => ⟨(hall co hco).1.2.1, (hall co hco).1.1⟩

/-! ## Inputs and data -/

/-- No two inputs spend the same output, and the data is short. -/
def Neat (t : Tx) : Prop := (∀ l, t.coinInputs = some l → (l.map CoinInput.parentId).Nodup) ∧ ∀ v, t = .v1 v → v.data.length ≤ 83

theorem neat_bare {t t' : Tx} (h : bare t' = bare t) (hn : Neat t) : Neat t' := by
  refine ⟨?_, ?_⟩
  · intro l hl
    have hi := bare_inputs h
    rw [hl] at hi
    cases hc : t.coinInputs with
    | none => rw [hc] at hi; cases hi
    | some l0 =>
      rw [hc] at hi
      simp only [Option.map_some, Option.some.injEq] at hi
      have := congrArg (List.map CoinInput.parentId) hi
      simp only [List.map_map] at this
      have h2 : l.map CoinInput.parentId = l0.map CoinInput.parentId := this
      rw [h2]
      exact hn.1 l0 hc
  · rintro v rfl
    cases t <;> simp only [bare, reduceCtorEq] at h
    rename_i v'
    simp only [Tx.v1.injEq, TxV1.mk.injEq] at h
    rw [h.2.2.2.2.2.1]
    exact hn.2 v' rfl

theorem setData_short {d : DataArg} {b : Bytes} (h : setData d = .ok b) : b.length ≤ 83 := by
  cases d <;> simp only [setData] at h <;> (try split at h) <;> cases h <;> first | omega | simp

theorem dataIf_short {d : DataArg} {b : Bytes} (h : dataIf d = .ok b) : b.length ≤ 83 := by
  unfold dataIf at h
  split at h
  · exact setData_short h
  · cases h; simp

theorem copyInputs_parentIds (l : List CoinInput) : (copyInputs l).map CoinInput.parentId = l.map CoinInput.parentId := by
  unfold copyInputs
  rw [List.map_map]
  rfl

theorem fundExtra_distinct {W : World} {w : Wallets} {extra : Currency} {src : Source} {refund : Recipient} {x : List CoinInput × Option CoinOutput × Currency}
    (hn : ((walletsSpendable w).map (·.id)).Nodup) (h : W.fundExtra w extra src refund = .ok x) : (x.1.map CoinInput.parentId).Nodup := by
  unfold World.fundExtra at h
  simp only [bind, Except.bind] at h
  split at h
  · cases h
  · split at h
    · cases h
    · rename_i x hx
      obtain ⟨ins', rem, suggested⟩ := x
      simp only at h
      have := C52_distinct_partial _ _ _ _ _ _ _ hn hx
      split at h
      · cases h
      · split at h
        · split at h
          · cases h
          · cases h; rw [copyInputs_parentIds]; exact this
        · cases h; rw [copyInputs_parentIds]; exact this

theorem payment_neat {W : World} {w : Wallets} {outs : List CoinOutput} {sum : Currency} {src : Source} {refund : Recipient} {data : DataArg} {t : Tx}
    (hn : ((walletsSpendable w).map (·.id)).Nodup) (h : W.payment w outs sum src refund data = .ok t) : Neat t := by
  unfold World.payment at h
  obtain ⟨need, _, h⟩ := bind_ok h
  obtain ⟨⟨ins, rem, suggested⟩, hx, h⟩ := bind_ok h
  obtain ⟨rf, _, h⟩ := bind_ok h
  obtain ⟨fee, _, h⟩ := bind_ok h
  obtain ⟨d, hd, h⟩ := bind_ok h
  cases h
  refine ⟨?_, ?_⟩
  · intro l hl
    cases hl
    rw [copyInputs_parentIds]
    exact C52_distinct_partial _ _ _ _ _ _ _ hn hx
  · intro v e
    cases e
    exact dataIf_short hd

theorem extra_neat {t : Tx} {l : List CoinInput} (h1 : t.coinInputs = some l) (h2 : (l.map CoinInput.parentId).Nodup) (h3 : ∀ v, t ≠ .v1 v) : Neat t :=
  ⟨fun l' h => by rw [h1] at h; cases h; exact h2, fun v e => absurd e (h3 v)⟩

theorem paying_neat {W : World} {w : Wallets} {src : Source} {refund : Recipient} {o : Outcome (Tx × Bool)} (hw : W.balance = .ok w)
    (hn : ((walletsSpendable w).map (·.id)).Nodup) (h : Paying W src refund o) {t : Tx} (ht : Produces o t) : Neat t := by
  have herc : ∀ (addr : BVal) (amt : CVal), Produces (W.erc20Send addr amt src refund) t → Neat t := by
    intro addr amt ht
    obtain ⟨w', hw', ht⟩ := ofRes_produces ht
    rw [hw] at hw'; cases hw'
    obtain ⟨t0, ht0, ht⟩ := ofRes_produces ht
    refine neat_bare (signSubmit_produces ht) ?_
    unfold World.erc20Payment at ht0
    obtain ⟨a, _, ht0⟩ := bind_ok ht0
    obtain ⟨ad, _, ht0⟩ := bind_ok ht0
    obtain ⟨x, hx, ht0⟩ := bind_ok ht0
    cases ht0
    exact extra_neat rfl (fundExtra_distinct hn hx) (by simp)
  cases h with
  | coins r amt lock data legal =>
    unfold World.coinsSend at ht
    split at ht
    · split at ht
      · exact herc _ _ ht
      · rcases ht with ht | ⟨b, ht⟩ <;> cases ht
    · obtain ⟨w', hw', ht⟩ := ofRes_produces ht
      rw [hw] at hw'; cases hw'
      obtain ⟨t0, ht0, ht⟩ := ofRes_produces ht
      refine neat_bare (signSubmit_produces ht) ?_
      unfold World.coinPayment at ht0
      obtain ⟨a, _, ht0⟩ := bind_ok ht0
      obtain ⟨c, _, ht0⟩ := bind_ok ht0
      exact payment_neat hn ht0
  | builder adds data legal =>
    unfold World.builderSend at ht
    simp only at ht
    split at ht
    · rcases ht with ht | ⟨b, ht⟩ <;> cases ht
    · obtain ⟨w', hw', ht⟩ := ofRes_produces ht
      rw [hw] at hw'; cases hw'
      obtain ⟨t0, ht0, ht⟩ := ofRes_produces ht
      refine neat_bare (signSubmit_produces ht) ?_
      unfold World.builderTx at ht0
      obtain ⟨s, _, ht0⟩ := bind_ok ht0
      exact payment_neat hn ht0
  | erc20 addr amt legal => exact herc addr amt ht
  | recordNew L months names addresses keyIndex =>
    obtain ⟨r, hr, ht⟩ := ofRes_produces ht
    obtain ⟨fees, hfees, ht⟩ := ofRes_produces ht
    obtain ⟨w', hw', ht⟩ := ofRes_produces ht
    rw [hw] at hw'; cases hw'
    obtain ⟨x, hx, ht⟩ := ofRes_produces ht
    obtain ⟨k, hk, ht⟩ := ofRes_produces ht
    exact neat_bare (signSubmit_produces ht) (extra_neat rfl (fundExtra_distinct hn hx) (by simp))
  | recordUpdate L id months na nr aa ar =>
    obtain ⟨r, hr, ht⟩ := ofRes_produces ht
    obtain ⟨k, hk, ht⟩ := ofRes_produces ht
    obtain ⟨fees, hfees, ht⟩ := ofRes_produces ht
    obtain ⟨w', hw', ht⟩ := ofRes_produces ht
    rw [hw] at hw'; cases hw'
    obtain ⟨x, hx, ht⟩ := ofRes_produces ht
    exact neat_bare (signSubmit_produces ht) (extra_neat rfl (fundExtra_distinct hn hx) (by simp))
  | nameTransfer sender receiver names =>
    obtain ⟨r, hr, ht⟩ := ofRes_produces ht
    obtain ⟨fees, hfees, ht⟩ := ofRes_produces ht
    obtain ⟨w', hw', ht⟩ := ofRes_produces ht
    rw [hw] at hw'; cases hw'
    obtain ⟨x, hx, ht⟩ := ofRes_produces ht
    exact neat_bare (signSubmit_produces ht) (extra_neat rfl (fundExtra_distinct hn hx) (by simp))
  | register which =>
    obtain ⟨k, hk, ht⟩ := ofRes_produces ht
    obtain ⟨w', hw', ht⟩ := ofRes_produces ht
    rw [hw] at hw'; cases hw'
    obtain ⟨x, hx, ht⟩ := ofRes_produces ht
    exact neat_bare (signSubmit_produces ht) (extra_neat rfl (fundExtra_distinct hn hx) (by simp))

/-! ## Validity -/

theorem price_same (m : Nat) : monthlyPrice m = botMonths m := by
  unfold monthlyPrice botMonths
  by_cases h1 : m < 12
  · rw [if_pos h1, if_pos h1]; omega
  · rw [if_neg h1, if_neg h1]
    by_cases h2 : m < 24
    · rw [if_pos h2, if_pos h2]; omega
    · rw [if_neg h2, if_neg h2]; omega

/-- The transaction spends what it pays, from what the wallet may use. -/
def FundsFit (W : World) (w : Wallets) (src : Source) (t : Tx) : Prop :=
  t.minerFees.map amount = [amount W.fee] ∧ (∀ co ∈ t.coinOutputs, 0 < amount co.value) ∧
    ∃ l, t.coinInputs = some l ∧ (∀ ci ∈ l, ∃ co, Eligible W.H w src co ∧ ci.parentId = co.id ∧ ci.parent = some co) ∧
      inputsTotal l = total t.coinOutputs + amount W.fee + charged t

/-- A payment of positive amounts spends what it pays. -/
theorem paid_fits {W : World} {w : Wallets} {src : Source} {refund : Recipient} {t : Tx} {pays : List (Nat × Condition)} {data : DataArg}
    (hp : IsPayment W w pays src refund data t) (hpos : ∀ p ∈ pays, 0 < p.1) : FundsFit W w src t := by
  obtain ⟨l, h1, _, h3, h4⟩ := hp.inputs
  obtain ⟨v, rfl, _⟩ := hp.standard
  refine ⟨hp.fee, ?_, l, h1, h3, h4⟩
  intro co hco
  obtain ⟨rest, e, hr⟩ := hp.outputs
  have hm : (amount co.value, co.condition) ∈ pays ++ rest := by rw [← e]; exact List.mem_map.2 ⟨co, hco, rfl⟩
  rcases List.mem_append.1 hm with hm | hm
  · exact hpos _ hm
  · rcases hr with rfl | ⟨n, c, rfl, hn, _⟩
    · simp at hm
    · rw [List.mem_singleton] at hm
      have := congrArg Prod.fst hm
      simp only at this
      omega

/-- What each call promises about funds. -/
theorem paying_funds {W : World} {w : Wallets} {src : Source} {refund : Recipient} {o : Outcome (Tx × Bool)} (hw : W.balance = .ok w)
    (hs : SaneOutputs (walletsSpendable w)) (hfee : GoodCurrency W.fee) (h : Paying W src refund o) {t : Tx} (ht : Produces o t) :
    FundsFit W w src t := by
  have funded : ∀ extra, IsFunded W w extra src refund t → extra = charged t →
      FundsFit W w src t := by
    intro extra hf he
    obtain ⟨l, h1, _, h3, h4⟩ := hf.inputs
    refine ⟨hf.fee, ?_, l, h1, h3, by rw [h4, he]; omega⟩
    rcases hf.outputs with e | ⟨co, e, hp, _⟩
    · rw [e]; simp
    · rw [e]; simpa using hp
  have paid : ∀ pays data, IsPayment W w pays src refund data t → (∀ p ∈ pays, 0 < p.1) →
      FundsFit W w src t := fun _ _ hp hpos => paid_fits hp hpos
  have asks : ∀ r amt lock pay, asked W.H r amt lock = some pay → 0 < pay.1 := by
    intro r amt lock pay h
    unfold asked at h
    split at h
    · split at h
      · cases h; assumption
      · cases h
    · cases h
  have herc : ∀ (addr : BVal) (amt : CVal) (_ : ∀ c, amt = .cur c → GoodCurrency c), Produces (W.erc20Send addr amt src refund) t → FundsFit W w src t := by
    intro addr amt hamt ht
    obtain ⟨a, v, _, _, rfl, _, e, hf⟩ := C56_erc20_send_partial W w addr amt src refund t hw hs hfee hamt ht
    exact funded _ hf e.symm
  cases h with
  | coins r amt lock data legal =>
    cases hr : r.erc20? with
    | none =>
      obtain ⟨pay, h1, h2⟩ := C56_coins_send_partial W w r amt src refund lock data t hw hs hfee legal hr ht
      exact paid _ _ h2 (by simpa using asks _ _ _ _ h1)
    | some addr =>
      unfold World.coinsSend at ht
      rw [hr] at ht
      simp only at ht
      split at ht
      · exact herc _ _ legal ht
      · rcases ht with ht | ⟨b, ht⟩ <;> cases ht
  | builder adds data legal =>
    refine paid _ _ (C56_builder_send_partial W w adds src refund data t hw hs hfee legal ht) ?_
    intro p hp
    obtain ⟨q, _, hq⟩ := List.mem_filterMap.1 hp
    exact asks _ _ _ _ hq
  | erc20 addr amt legal => exact herc addr amt legal ht
  | recordNew L months names addresses keyIndex =>
    obtain ⟨v, k, rfl, e, _, _, _, _, _, _, hf⟩ := C79_record_new_partial W w L months names addresses keyIndex src refund t hw hs hfee ht
    exact funded _ hf (by simp only [charged, e, price_same])
  | recordUpdate L id months na nr aa ar =>
    obtain ⟨v, k, _, rfl, _, _, e, _, _, _, _, _, _, _, _, hf⟩ := C79_record_update_partial W w L id months na nr aa ar src refund t hw hs hfee ht
    exact funded _ hf (by simp only [charged, e, price_same])
  | nameTransfer sender receiver names =>
    obtain ⟨v, a, b, rfl, _, _, _, _, _, _, _, _, _, _, hf⟩ := C79_name_transfer_partial W w sender receiver names src refund t hw hs hfee ht
    exact funded _ hf rfl
  | register which =>
    obtain ⟨v, k, rfl, _, _, hf⟩ := C79_address_register_partial W w which src refund t hw hs hfee ht
    exact funded _ hf rfl

theorem paying_signed {W : World} (hH : Digest32 W.H) {src : Source} {refund : Recipient} {o : Outcome (Tx × Bool)} (h : Paying W src refund o) :
    SubmitsSigned W o := by
  cases h with
  | coins r amt lock data legal => exact C57_coins_send ..
  | builder adds data legal => exact C57_builder_send ..
  | erc20 addr amt legal => exact C57_erc20_send ..
  | recordNew L months names addresses keyIndex => exact C57_record_new ..
  | recordUpdate L id months na nr aa ar => exact C57_record_update ..
  | nameTransfer sender receiver names => exact C57_name_transfer W hH ..
  | register which => exact C57_address_register ..

theorem paying_balance {W : World} {src : Source} {refund : Recipient} {o : Outcome (Tx × Bool)} (h : Paying W src refund o) {t : Tx} (ht : Produces o t) :
    ∃ w, W.balance = .ok w := by
  have herc : ∀ (addr : BVal) (amt : CVal), Produces (W.erc20Send addr amt src refund) t → ∃ w, W.balance = .ok w := by
    intro addr amt ht
    obtain ⟨w, hw, _⟩ := ofRes_produces ht
    exact ⟨w, hw⟩
  cases h with
  | coins r amt lock data legal =>
    unfold World.coinsSend at ht
    split at ht
    · split at ht
      · exact herc _ _ ht
      · rcases ht with ht | ⟨b, ht⟩ <;> cases ht
    · obtain ⟨w, hw, _⟩ := ofRes_produces ht
      exact ⟨w, hw⟩
  | builder adds data legal =>
    unfold World.builderSend at ht
    simp only at ht
    split at ht
    · rcases ht with ht | ⟨b, ht⟩ <;> cases ht
    · obtain ⟨w, hw, _⟩ := ofRes_produces ht
      exact ⟨w, hw⟩
  | erc20 addr amt legal => exact herc addr amt ht
  | recordNew L months names addresses keyIndex =>
    obtain ⟨_, _, ht⟩ := ofRes_produces ht
    obtain ⟨_, _, ht⟩ := ofRes_produces ht
    obtain ⟨w, hw, _⟩ := ofRes_produces ht
    exact ⟨w, hw⟩
  | recordUpdate L id months na nr aa ar =>
    obtain ⟨_, _, ht⟩ := ofRes_produces ht
    obtain ⟨_, _, ht⟩ := ofRes_produces ht
    obtain ⟨_, _, ht⟩ := ofRes_produces ht
    obtain ⟨w, hw, _⟩ := ofRes_produces ht
    exact ⟨w, hw⟩
  | nameTransfer sender receiver names =>
    obtain ⟨_, _, ht⟩ := ofRes_produces ht
    obtain ⟨_, _, ht⟩ := ofRes_produces ht
    obtain ⟨w, hw, _⟩ := ofRes_produces ht
    exact ⟨w, hw⟩
  | register which =>
    obtain ⟨_, _, ht⟩ := ofRes_produces ht
    obtain ⟨w, hw, _⟩ := ofRes_produces ht
    exact ⟨w, hw⟩

/-- A transaction that spends what it pays from what the wallet may use, neatly and with all signatures, is valid. -/
theorem valid_of {W : World} {C : Client} {own : List UnlockHash} {S : ChainState} (ho : OnChain W C own S) (hm : NoMinting C own)
    (hnw : NoWithdrawals C own) (hpos : 0 < amount W.fee) {src : Source} {w : Wallets} (hw : W.balance = .ok w) {t : Tx}
    (hfun : FundsFit W w src t) (hn : Neat t) (hsig : FullySigned W t) : ValidOn W S t := by
  obtain ⟨hall, hnd, hs⟩ := offered_all ho hm hnw hw
  obtain ⟨h1, h2, l, h3, h4, h5⟩ := hfun
  obtain ⟨⟨l', e, hun⟩, hext⟩ := hsig
  rw [h3] at e
  cases e
  have hpar : ∀ ci ∈ l, ci.parentOutput ∈ walletsSpendable w ∧ ci.parentId = ci.parentOutput.id := by
    intro ci hci
    obtain ⟨co, k1, k2, k3⟩ := h4 ci hci
    have : ci.parentOutput = co := by simp [CoinInput.parentOutput, k3]
    rw [this]
    exact ⟨eligible_offered k1, k2⟩
  refine ⟨⟨l, l.map CoinInput.parentOutput, h3, ?_, hn.1 l h3, ?_, ?_, ?_, h5⟩, h1, h2, hext, hn.2⟩
  · rintro rfl
    simp [inputsTotal, total] at h5
    omega
  · rw [List.map_map]
    exact List.map_congr_left fun ci hci => (hpar ci hci).2
  · intro co hco
    obtain ⟨ci, hci, rfl⟩ := List.mem_map.1 hco
    obtain ⟨⟨k1, k2, k3⟩, k4⟩ := hall _ (hpar ci hci).1
    exact ⟨k1, k2, k3, k4⟩
  · intro i ci co hi hco
    obtain ⟨c0, k1, k2⟩ := hun i ci hi
    rw [List.getElem?_map, hi] at hco
    cases hco
    simpa [CoinInput.parentOutput, k1] using k2

/-- **C120** (what holds). Let the explorers tell the truth about a chain, let the own addresses have no part in ERC20 withdrawals and the shared ones
none in mint definitions either. Whatever a paying call then submits is a transaction the network accepts: its inputs exist, are unspent, unlocked and
all different, each is fulfilled, they are worth exactly what the transaction pays with its fees, and all its signatures are there. -/
theorem C120_valid_partial (W : World) (C : Client) (own : List UnlockHash) (S : ChainState) (ho : OnChain W C own S) (hm : NoMinting C own)
    (hnw : NoWithdrawals C own) (hfee : GoodCurrency W.fee) (hpos : 0 < amount W.fee) (src : Source) (refund : Recipient) (o : Outcome (Tx × Bool))
    (h : Paying W src refund o) (t : Tx) (ht : t ∈ o.posted) : ValidOn W S t := by
  obtain ⟨w, hw⟩ := paying_balance h (.inl ht)
  obtain ⟨_, hnd, hs⟩ := offered_all ho hm hnw hw
  exact valid_of ho hm hnw hpos hw (paying_funds hw hs hfee h (.inl ht)) (paying_neat hw hnd h (.inl ht)) ((paying_signed ho.digest h).signed t ht)

/-! ## Chains to look at -/

/-- The outputs of a chain. -/
def chainOutputs (S : ChainState) : List CoinOutput := S.txs.flatMap fun t => t.tx.coinOutputs

theorem mem_chainOutputs {S : ChainState} {co : CoinOutput} : co ∈ chainOutputs S ↔ CreatedOn S co := by
  unfold chainOutputs CreatedOn
  rw [List.mem_flatMap]

/-- Whether a chain is lawful. -/
def lawfulCheck (S : ChainState) : Bool :=
  (S.txs.all fun t => (match t.tx with | .v209 _ => true | _ => false) || t.tx.coinOutputs.all fun co => co.id.value.length == 32) &&
  (S.txs.all fun t => S.txs.all fun t' => t.tx.coinOutputs.all fun co => t'.tx.coinOutputs.all fun co' =>
    co.id.value.length != 32 || co.id ≠ co'.id || (t = t' && co = co')) &&
  (S.txs.all fun t => (t.tx.coinInputs.getD []).all fun ci => (chainOutputs S).all fun co =>
    co.id.value.length != 32 || ci.parentId ≠ co.id || ci.parentOutput.condition = co.condition) &&
  ((chainOutputs S).all fun co => !co.value.value.neg && (-9 ≤ co.value.value.exp : Bool)) &&
  total (chainOutputs S) < 10 ^ 28 &&
  (S.txs.all fun t => t.tx.coinOutputs.all fun co => (t.tx.coinInputs.getD []).all fun ci => co.id.value.length != 32 || ci.parentId ≠ co.id) && 0 < S.height && 0 < S.time

theorem lawful_of_check {S : ChainState} (h : lawfulCheck S = true) : LawfulChain S := by
  unfold lawfulCheck at h
  simp only [Bool.and_eq_true, List.all_eq_true, Bool.or_eq_true, decide_eq_true_eq, bne_iff_ne, ne_eq, beq_iff_eq, Bool.not_eq_true'] at h
  obtain ⟨⟨⟨⟨⟨⟨⟨h1, h2⟩, h3⟩, h4⟩, h5⟩, h8⟩, h6⟩, h7⟩ := h
  refine ⟨?_, ?_, ?_, ?_, ?_, ?_, h6, h7⟩
  · intro t ht hn co hco
    rcases h1 t ht with e | e
    · exfalso
      apply hn
      split at e
      · rename_i v hv; rw [hv]; trivial
      · cases e
    · exact e co hco
  · intro t ht t' ht' co hco co' hco' hi e
    rcases h2 t ht t' ht' co hco co' hco' with (k | k) | k
    · exact absurd hi k
    · exact absurd e k
    · exact k
  · intro t ht l hl ci hci co hco hi e
    rcases h3 t ht ci (by rw [hl]; exact hci) co (mem_chainOutputs.2 hco) with (k | k) | k
    · exact absurd hi k
    · exact absurd e k
    · exact k
  · intro co hco
    obtain ⟨k1, k2⟩ := h4 co (mem_chainOutputs.2 hco)
    exact ⟨k1, k2⟩
  · intro l hl hu
    refine Nat.lt_of_le_of_lt ?_ h5
    have hsub : l ⊆ chainOutputs S := fun co hco => mem_chainOutputs.2 (hu co hco).1.1
    obtain ⟨l', hp, hs⟩ := hl.subperm hsub
    rw [← total_perm hp]
    exact total_sublist hs
  · rintro t ht co hco hi ⟨l, hl, ci, hci, e⟩
    rcases h8 t ht co hco ci (by rw [hl]; exact hci) with k | k
    · exact absurd hi k
    · exact absurd e k

/-- Whether an output is at an address. -/
def atCheck (H : Bytes → Bytes) (a : Str) (co : CoinOutput) : Bool := match co.condition.unlockhash H with
  | .ok u => decide (u.str H = a)
  | .error _ => false

/-- Whether a history tells the truth. -/
def truthCheck (H : Bytes → Bytes) (S : ChainState) (h : History) : Bool :=
  (h.txs.all fun t => t ∈ S.txs) &&
  (S.txs.all fun t => t ∈ h.txs || !((t.tx.coinOutputs.any (atCheck H (h.address.str H))) ||
    (chainOutputs S).any fun co => atCheck H (h.address.str H) co && (t.tx.coinInputs.getD []).any fun ci => ci.parentId = co.id)) &&
  h.multisigs.all fun u => u.type = 3 && u.hash.value.length = 32

theorem truth_of_check {H : Bytes → Bytes} {S : ChainState} {h : History} (hc : truthCheck H S h = true) :
    (∀ t ∈ h.txs, t ∈ S.txs) ∧ (∀ t ∈ S.txs, ConcernsAt H S (h.address.str H) t → t ∈ h.txs) ∧ ∀ u ∈ h.multisigs, CanonicalAddress u := by
  unfold truthCheck at hc
  simp only [Bool.and_eq_true, List.all_eq_true, Bool.or_eq_true, decide_eq_true_eq, Bool.not_eq_true'] at hc
  obtain ⟨⟨h1, h2⟩, h3⟩ := hc
  refine ⟨h1, ?_, fun u hu => .inl ⟨by rw [(h3 u hu).1]; simp, (h3 u hu).2⟩⟩
  intro t ht hcon
  rcases h2 t ht with k | k
  · exact k
  · exfalso
    rw [Bool.or_eq_false_iff, List.any_eq_false, List.any_eq_false] at k
    rcases hcon with ⟨co, hco, hat⟩ | ⟨co, hco, hat, l, hl, ci, hci, e⟩
    · exact k.1 co hco (atAddress_check.2 hat)
    · apply k.2 co (mem_chainOutputs.2 hco)
      rw [Bool.and_eq_true, List.any_eq_true]
      exact ⟨atAddress_check.2 hat, ci, by rw [hl]; exact hci, by simpa using e⟩

/-- The explorer of known addresses answers for these only. -/
theorem explorerOf_asked {l : List (UnlockHash × List Json × List UnlockHash)} (hl : ∀ p ∈ l, CanonicalAddress p.1) {target : Recipient} {h : History}
    (hg : (explorerOf l).unlockhashGet target = .ok h) : ∃ p ∈ l, (explorerOf l).unlockhashGet (.str (p.1.str toyHash)) = .ok h := by
  obtain ⟨c, u, resp, h1, h2, h3, h4⟩ := unlockhashGet_ok hg
  have : ∃ p ∈ l, u.str toyHash = p.1.str toyHash := by
    have h3 : (match l.find? fun p => "/explorer/hashes/".toList ++ u.str toyHash = "/explorer/hashes/".toList ++ p.1.str toyHash with
      | some (_, entries, ms) => Except.ok (.obj [("hashtype", .str "unlockhash".toList), ("transactions", .arr entries),
          ("multisigaddresses", .arr (ms.map fun u => .str (u.str toyHash)))])
      | none => .error .explorerNoContent) = (Except.ok resp : Res Json) := h3
    cases hf : l.find? fun p => "/explorer/hashes/".toList ++ u.str toyHash = "/explorer/hashes/".toList ++ p.1.str toyHash with
    | none => rw [hf] at h3; cases h3
    | some p =>
      have := List.find?_some hf
      exact ⟨p, List.mem_of_find?_eq_some hf, List.append_cancel_left (of_decide_eq_true this)⟩
  obtain ⟨p, hp, e⟩ := this
  refine ⟨p, hp, ?_⟩
  have hr := (C22_address_roundtrip toyHash toyHash_digest p.1 (hl p hp)).2
  have e1 : fromRecipient toyHash (.str (p.1.str toyHash)) .none = .ok (.unlockHash p.1) :=
    bind_of (show (UnlockHash.fromJson toyHash (.str (p.1.str toyHash)) >>= fun x => pure (Condition.unlockHash x)) = .ok (.unlockHash p.1) by rw [hr]; rfl) rfl
  unfold Client.unlockhashGet
  refine bind_of e1 (bind_of (a := p.1) rfl (bind_of (a := resp) (by rw [← h3]; exact congrArg _ (by rw [show ((explorerOf l).H) = toyHash from rfl, e]; rfl)) ?_))
  show keyErrorInvalid (readHistory (explorerOf l).L toyHash (p.1.str toyHash) resp) = .ok h
  rw [← e]
  have h4 : readHistory (explorerOf l).L toyHash (u.str toyHash) resp = .ok h := h4
  rw [h4]
  rfl

theorem truthful_explorer {l : List (UnlockHash × List Json × List UnlockHash)} {S : ChainState} (hl : ∀ p ∈ l, CanonicalAddress p.1)
    (h : (l.all fun p => match (explorerOf l).unlockhashGet (.str (p.1.str toyHash)) with | .ok h => truthCheck toyHash S h | .error _ => true) = true) :
    Truthful (explorerOf l) S := by
  intro target g hg
  obtain ⟨p, hp, e⟩ := explorerOf_asked hl hg
  have := List.all_eq_true.1 h p hp
  rw [e] at this
  exact truth_of_check this

/-- The transactions of a history, and the wallets of a balance. -/
def historyTxs (r : Res History) : List ChainTx := match r with
  | .ok h => h.txs
  | .error _ => []
@[inherit_doc historyTxs] def walletsIn (r : Res AnyBalance) : Res Wallets := match r with
  | .ok (.wallets w) => .ok w
  | .ok _ => .error .valueError
  | .error e => .error e

/-- The wallet of `demoWorld` with what a client finds for its address. -/
def onExplorer (C : Client) : World :=
  { demoWorld with balance := walletsIn (C.walletBalance (.ok infoDemo) ([addrOf key1].map fun u => u.str C.H)) }

theorem onExplorer_balance (C : Client) :
    (onExplorer C).balance = walletsIn (C.walletBalance (.ok infoDemo) ([addrOf key1].map fun u => u.str C.H)) := rfl

theorem onChain_of {l : List (UnlockHash × List Json × List UnlockHash)} {S : ChainState} (hl : ∀ p ∈ l, CanonicalAddress p.1)
    (h : (l.all fun p => match (explorerOf l).unlockhashGet (.str (p.1.str toyHash)) with | .ok h => truthCheck toyHash S h | .error _ => true) = true)
    (hS : lawfulCheck S = true) (h1 : S.height = 100) (h2 : S.time = 1550000000) : OnChain (onExplorer (explorerOf l)) (explorerOf l) [addrOf key1] S := by
  refine ⟨rfl, toyHash_digest, ?_, ?_, lawful_of_check hS, truthful_explorer hl h⟩
  · intro u hu
    rw [List.mem_singleton.1 hu]
    exact ⟨by decide +kernel, .inl (by decide +kernel)⟩
  · intro w hw
    refine ⟨infoDemo, h1.symm, h2.symm, ?_⟩
    rw [onExplorer_balance] at hw
    unfold walletsIn at hw
    split at hw
    · rename_i x hx; cases hw; exact hx
    · cases hw
    · cases hw

/-- `coinN` is created. -/
def entryCreatesN (height : Int) : Json :=
  entryOf { coinOutputs := [⟨(coinN 0).value, (coinN 0).condition, ⟨[]⟩⟩], minerFees := [⟨some ⟨false, 1, 0⟩⟩] } ⟨List.replicate 32 15⟩ [] [(coinN 0).id] height false
/-- `coinN` is spent. -/
def entrySpendsN (height : Int) : Json :=
  entryOf { coinInputs := [⟨(coinN 0).id, .multi [], none⟩], coinOutputs := [⟨⟨some ⟨false, 1, 0⟩⟩, .unlockHash (addrOf key2), ⟨[]⟩⟩], minerFees := [⟨some ⟨false, 1, 0⟩⟩] }
    ⟨List.replicate 32 17⟩ [coinN 0] [⟨List.replicate 32 22⟩] height false
/-- `coinA` is spent, not yet in a block; 4 TFT return. -/
def entrySpendsA : Json := entryOf spendsA ⟨List.replicate 32 12⟩ [coinA] [⟨List.replicate 32 21⟩] 0 true

/-- A wallet with an output of its own that is spent, one that replaces it, and one under a multi-signature address that needs only its signature. -/
def richList : List (UnlockHash × List Json × List UnlockHash) :=
  [(addrOf key1, [entryCreates 5, entrySpendsA, entryCreatesN 6], [nAddr]), (nAddr, [entryCreatesN 6], [])]
@[inherit_doc richList] def richChain : ChainState := ⟨historyTxs ((explorerOf richList).unlockhashGet (.str ((addrOf key1).str toyHash))), 100, 1550000000⟩
@[inherit_doc richList] def richWorld : World := onExplorer (explorerOf richList)

theorem rich_addresses : ∀ p ∈ richList, CanonicalAddress p.1 := by
  intro p hp
  simp only [richList, List.mem_cons, List.not_mem_nil, or_false] at hp
  rcases hp with rfl | rfl <;> exact .inl (by decide +kernel)

theorem rich_onChain : OnChain richWorld (explorerOf richList) [addrOf key1] richChain :=
  onChain_of rich_addresses (by decide +kernel) (by decide +kernel) rfl rfl

/-- Whether the histories of an explorer have no transactions of some kind. -/
def noneIs (p : Tx → Bool) (l : List (UnlockHash × List Json × List UnlockHash)) : Bool :=
  l.all fun q => (historyTxs ((explorerOf l).unlockhashGet (.str (q.1.str toyHash)))).all fun t => !p t.tx

theorem none_is {p : Tx → Bool} {l : List (UnlockHash × List Json × List UnlockHash)} (hl : ∀ q ∈ l, CanonicalAddress q.1) (h : noneIs p l = true)
    {target : Recipient} {g : History} (hg : (explorerOf l).unlockhashGet target = .ok g) : ∀ t ∈ g.txs, p t.tx = false := by
  intro t ht
  obtain ⟨q, hq, e⟩ := explorerOf_asked hl hg
  have := List.all_eq_true.1 h q hq
  rw [e] at this
  simpa using List.all_eq_true.1 this t ht

/-- The kinds of transactions the theorem leaves out. -/
def mints : Tx → Bool
  | .v128 _ => true
  | _ => false
@[inherit_doc mints] def withdraws : Tx → Bool
  | .v209 _ => true
  | _ => false

theorem noMinting_of {l : List (UnlockHash × List Json × List UnlockHash)} (hl : ∀ q ∈ l, CanonicalAddress q.1) (h : noneIs mints l = true) (own : List UnlockHash) :
    NoMinting (explorerOf l) own := by
  rintro g ⟨_, _, u, _, hg⟩ t ht hm
  have := none_is hl h hg t ht
  cases htx : t.tx <;> simp [htx, IsMintDefinition, mints] at hm this

theorem noWithdrawals_of {l : List (UnlockHash × List Json × List UnlockHash)} (hl : ∀ q ∈ l, CanonicalAddress q.1) (h : noneIs withdraws l = true)
    (own : List UnlockHash) : NoWithdrawals (explorerOf l) own := by
  have key : ∀ (target : Recipient) (g : History), (explorerOf l).unlockhashGet target = .ok g → ∀ t ∈ g.txs, ¬ IsWithdrawal t.tx := by
    intro target g hg t ht hm
    have := none_is hl h hg t ht
    cases htx : t.tx <;> simp [htx, IsWithdrawal, withdraws] at hm this
  rintro g (⟨u, _, hg⟩ | ⟨_, _, u, _, hg⟩)
  · exact key _ g hg
  · exact key _ g hg

/-- The hypotheses are met by a wallet that does submit something, from its own address and from a multi-signature address. -/
example : OnChain richWorld (explorerOf richList) [addrOf key1] richChain ∧ NoMinting (explorerOf richList) [addrOf key1] ∧
    NoWithdrawals (explorerOf richList) [addrOf key1] ∧ GoodCurrency richWorld.fee ∧ 0 < amount richWorld.fee ∧
    ((richWorld.coinsSend (.uh (addrOf key2)) (.int 3) .none .none .none .none).posted.map fun (t : Tx) => (t.coinInputs.getD []).map CoinInput.parentId) =
      [[⟨List.replicate 32 21⟩]] ∧
    ((richWorld.coinsSend (.uh (addrOf key2)) (.int 1) (.one (.uh nAddr)) .none .none .none).posted.map fun (t : Tx) => (t.coinInputs.getD []).map CoinInput.parentId) =
      [[(coinN 0).id]] :=
  ⟨rich_onChain, noMinting_of rich_addresses (by decide +kernel) _, noWithdrawals_of rich_addresses (by decide +kernel) _, ⟨rfl, by decide⟩, by decide,
    by decide +kernel, by decide +kernel⟩

/-! ## What goes wrong -/

/-- A wallet that received an ERC20 withdrawal. -/
def withdrawnList : List (UnlockHash × List Json × List UnlockHash) := [(addrOf key1, [entryWithdrawal ⟨some ⟨false, 5, 0⟩⟩ coinA.id 5], [])]
@[inherit_doc withdrawnList] def withdrawnChain : ChainState :=
  ⟨historyTxs ((explorerOf withdrawnList).unlockhashGet (.str ((addrOf key1).str toyHash))), 100, 1550000000⟩
@[inherit_doc withdrawnList] def withdrawnWorld : World := onExplorer (explorerOf withdrawnList)

theorem withdrawn_addresses : ∀ p ∈ withdrawnList, CanonicalAddress p.1 := by
  intro p hp
  simp only [withdrawnList, List.mem_cons, List.not_mem_nil, or_false] at hp
  rcases hp with rfl
  exact .inl (by decide +kernel)

/-- **C120** is false for a wallet that received an ERC20 withdrawal: the balance offers the output without its id, and a payment that spends it is
submitted although no output has that id. -/
theorem C120_withdrawal_false : ∃ (W : World) (C : Client) (own : List UnlockHash) (S : ChainState), OnChain W C own S ∧ NoMinting C own ∧
    GoodCurrency W.fee ∧ 0 < amount W.fee ∧ ∃ o t, Paying W .none .none o ∧ o.posted = [t] ∧ ¬ ValidOn W S t := by
  have h1 : ((withdrawnWorld.coinsSend (.uh (addrOf key2)) (.int 3) .none .none .none .none).posted.map fun (t : Tx) =>
      t.coinInputs.map fun l => l.map CoinInput.parentId) = [some [⟨[]⟩]] := by decide +kernel
  refine ⟨withdrawnWorld, explorerOf withdrawnList, [addrOf key1], withdrawnChain, onChain_of withdrawn_addresses (by decide +kernel) (by decide +kernel) rfl rfl,
    noMinting_of withdrawn_addresses (by decide +kernel) _, ⟨rfl, by decide⟩, by decide,
    withdrawnWorld.coinsSend (.uh (addrOf key2)) (.int 3) .none .none .none .none, ?_⟩
  obtain ⟨t, ht, e⟩ := List.map_eq_singleton_iff.1 h1
  refine ⟨t, .coins _ _ _ _ (by intro c hc; cases hc), ht, ?_⟩
  rintro ⟨⟨l, spent, k1, _, _, k4, k5, _⟩, _⟩
  rw [k1] at e
  simp only [Option.map_some, Option.some.injEq] at e
  rw [e] at k4
  obtain ⟨co, rfl, hco⟩ := List.map_eq_singleton_iff.1 k4.symm
  have := (k5 co (by simp)).1
  unfold Identified at this
  rw [hco] at this
  simp at this

/-- A multi-signature address receives an output, becomes the mint condition and spends the output. -/
def minterList : List (UnlockHash × List Json × List UnlockHash) :=
  [(addrOf key1, [], [nAddr]), (nAddr, [entryCreatesN 3, entryMint (coinN 0).condition 4, entrySpendsN 5], [])]
@[inherit_doc minterList] def minterChain : ChainState :=
  ⟨historyTxs ((explorerOf minterList).unlockhashGet (.str (nAddr.str toyHash))), 100, 1550000000⟩
@[inherit_doc minterList] def minterWorld : World := onExplorer (explorerOf minterList)

theorem minter_addresses : ∀ p ∈ minterList, CanonicalAddress p.1 := by
  intro p hp
  simp only [minterList, List.mem_cons, List.not_mem_nil, or_false] at hp
  rcases hp with rfl | rfl <;> exact .inl (by decide +kernel)

/-- **C120** is false for a wallet one of whose multi-signature addresses was made the mint condition: the balance forgets what was spent since, and a
payment submits a double spend. -/
theorem C120_mint_false : ∃ (W : World) (C : Client) (own : List UnlockHash) (S : ChainState), OnChain W C own S ∧ NoWithdrawals C own ∧
    GoodCurrency W.fee ∧ 0 < amount W.fee ∧ ∃ src o t l, Paying W src .none o ∧ o.posted = [t] ∧ t.coinInputs = some l ∧ ∃ ci ∈ l, SpentOn S ci.parentId := by
  have h1 : ((minterWorld.coinsSend (.uh (addrOf key2)) (.int 1) (.one (.uh nAddr)) .none .none .none).posted.map fun (t : Tx) =>
      t.coinInputs.map fun l => l.map CoinInput.parentId) = [some [(coinN 0).id]] := by decide +kernel
  refine ⟨minterWorld, explorerOf minterList, [addrOf key1], minterChain, onChain_of minter_addresses (by decide +kernel) (by decide +kernel) rfl rfl,
    noWithdrawals_of minter_addresses (by decide +kernel) _, ⟨rfl, by decide⟩, by decide, .one (.uh nAddr),
    minterWorld.coinsSend (.uh (addrOf key2)) (.int 1) (.one (.uh nAddr)) .none .none .none, ?_⟩
  obtain ⟨t, ht, e⟩ := List.map_eq_singleton_iff.1 h1
  obtain ⟨l, hl, e⟩ := Option.map_eq_some_iff.1 e
  obtain ⟨ci, rfl, hci⟩ := List.map_eq_singleton_iff.1 e
  refine ⟨t, [ci], .coins _ _ _ _ (by intro c hc; cases hc), ht, hl, ci, by simp, ?_⟩
  rw [hci]
  have h2 : (minterChain.txs.any fun t => (t.tx.coinInputs.getD []).any fun ci => ci.parentId = (coinN 0).id) = true := by decide +kernel
  obtain ⟨t', ht', k⟩ := List.any_eq_true.1 h2
  obtain ⟨ci', hci', k⟩ := List.any_eq_true.1 k
  cases hc : t'.tx.coinInputs with
  | none => rw [hc] at hci'; cases hci'
  | some ins => exact ⟨t', ht', ins, hc, ci', by rw [hc] at hci'; exact hci', of_decide_eq_true k⟩

end TF.Props
