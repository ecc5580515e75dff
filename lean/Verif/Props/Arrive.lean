import Verif.Spec.Arrive
import Verif.Props.Circulation
/-! # C135: what is paid arrives -/
namespace TF.Props
open TF TF.Spec

/-- A balance that counts what addresses own shows what it is worth. -/
theorem showsCoins_of {H : Bytes → Bytes} {S : ChainState} (hl : LawfulChain S) {b : Balance} {own : List UnlockHash} (hnd : ((counted b).map CoinOutput.id).Nodup)
    (hmem : ∀ co, co ∈ counted b ↔ (UnspentOn S co ∧ Identified co) ∧ AtAny H own co) {n : Nat} (hn : Owned H S own n) : ShowsCoins b n := by
  obtain ⟨l, hl', hlm, rfl⟩ := hn
  have hp : total (counted b) = total l :=
    total_perm ((List.perm_ext_iff_of_nodup (hnd.of_map _) hl').2 fun co => by rw [hmem, hlm])
  have hs : SaneOutputs (counted b) :=
    ⟨fun co hco => hl.amounts co ((hmem co).1 hco).1.1.1, hl.supply _ (hnd.of_map _) fun co hco => ((hmem co).1 hco).1⟩
  obtain ⟨a, x, ua, ul, e1, e2, e3, e4, e5, e6⟩ := C49_amounts_split_partial b (SaneOutputs.sublist hs (List.sublist_append_left _ _)) (SaneOutputs.sublist hs (List.sublist_append_right _ _))
  refine ⟨a, x, ua, ul, e1, e2, e3, e4, ?_⟩
  rw [← hp]
  unfold counted
  rw [total_append]
  omega

theorem base_members {W : World} {C : Client} {own : List UnlockHash} {S : ChainState} (hi : Informed W C own S) (ha : Answering C own S)
    {w : Wallets} (hw : W.balance = .ok w) :
    ((counted w.base).map CoinOutput.id).Nodup ∧ ∀ co, co ∈ counted w.base ↔ (UnspentOn S co ∧ Identified co) ∧ AtAny W.H own co := by
  have ho := hi.chain
  have hm := hi.mints
  have hnw := hi.withdrawals
  obtain ⟨info, hh, ht, hb⟩ := ho.balance w hw
  have h1 : ∀ u ∈ own, u.type = 1 := fun u hu => (ho.personal u hu).1
  have has := assembled_balance h1 hb
  have hH : Digest32 C.H := by rw [ho.hash]; exact ho.digest
  have hcoh : CoherentAll C (OwnHistory C own) := by
    refine ⟨?_, ?_⟩
    · rintro h ⟨u, hu, hg⟩; exact truthful_coherent ho.lawful ho.truthful hg (hnw h (.inl ⟨u, hu, hg⟩))
    · rintro h h' co c co' c' ⟨u, hu, hg⟩ ⟨u', _, hg'⟩ k1 k2 e
      exact truthful_ids ho.lawful ho.truthful hg hg' (hnw h (.inl ⟨u, hu, hg⟩)) k1 k2 e
  obtain ⟨w', e, hk, g1, g2, _, _⟩ := C96_balance_partial C own h1 info (.wallets w) hb hcoh (by
    rintro h hs
    refine ⟨?_, hm h hs⟩
    have hn := hnw h (.inr hs)
    obtain ⟨_, _, u, _, hg⟩ := hs
    exact truthful_coherent ho.lawful ho.truthful hg hn)
  cases e
  refine ⟨?_, fun co => ⟨fun hco => ?_, ?_⟩⟩
  · unfold counted
    rw [List.map_append, has.fo.values, has.fu.values, List.nodup_append]
    refine ⟨has.no, has.nu, ?_⟩
    rintro x hx y hy rfl
    rw [← has.fo.values] at hx
    rw [← has.fu.values] at hy
    obtain ⟨co, hco, rfl⟩ := List.mem_map.1 hx
    obtain ⟨co', hco', e⟩ := List.mem_map.1 hy
    obtain ⟨h, ho1, hu1⟩ := (g1 co).1 hco
    obtain ⟨h', ho2, hu2⟩ := (g2 co').1 hco'
    exact absurd (hcoh.ids h h' co true co' false ho1 ho2 hu1.1 hu2.1 e.symm).2 (by decide)
  · have : ∃ c h, OwnHistory C own h ∧ Unspent C.H h co c := by
      rcases List.mem_append.1 hco with k1 | k1
      · obtain ⟨h, x, y⟩ := (g1 co).1 k1; exact ⟨_, h, x, y⟩
      · obtain ⟨h, x, y⟩ := (g2 co).1 k1; exact ⟨_, h, x, y⟩
    obtain ⟨c, h, ⟨u, hu, hg⟩, hun⟩ := this
    refine ⟨⟨truthful_unspent ho.truthful hg hun, created_full ho.lawful ho.truthful hg (hnw h (.inl ⟨u, hu, hg⟩)) hun.1⟩, u, hu, ?_⟩
    obtain ⟨_, _, _, _, hat⟩ := hun.1
    rw [history_address hH (ho.personal u hu).2 hg] at hat
    rw [← ho.hash]
    exact hat
  · rintro ⟨⟨⟨⟨t, hts, hco⟩, hns⟩, hid⟩, u, hu, hat⟩
    rw [← ho.hash] at hat
    have hcon : ConcernsAt C.H S (u.str C.H) t := .inl ⟨co, hco, hat⟩
    obtain ⟨h, hg⟩ := ha u hu ⟨t, hts, hcon⟩
    have had := history_address hH (ho.personal u hu).2 hg
    have htin := (ho.truthful _ _ hg).2.1 t hts (by rw [had]; exact hcon)
    have hun : Unspent C.H h co (!t.unconfirmed) := by
      refine ⟨⟨t, htin, by simp, hco, by rw [had]; exact hat⟩, ?_⟩
      rintro ⟨t', h1, h2⟩
      exact hns ⟨t', (ho.truthful _ _ hg).1 t' h1, h2⟩
    rcases hc : t.unconfirmed with _ | _ <;> rw [hc] at hun
    · exact List.mem_append_left _ ((g1 co).2 ⟨h, ⟨u, hu, hg⟩, hun⟩)
    · exact List.mem_append_right _ ((g2 co).2 ⟨h, ⟨u, hu, hg⟩, hun⟩)

/-- **C135.** If explorers tell the truth about the chain and know the addresses it knows, the balance of a wallet shows exactly what its addresses own on the chain. -/
theorem C135_shows_partial (W : World) (C : Client) (own : List UnlockHash) (S : ChainState) (hi : Informed W C own S) (ha : Answering C own S) (w : Wallets)
    (hw : W.balance = .ok w) (n : Nat) (hn : Owned W.H S own n) : ShowsCoins w.base n := by
  obtain ⟨hnd, hmem⟩ := base_members hi ha hw
  exact showsCoins_of hi.chain.lawful hnd hmem hn

/-- A condition that unwraps to a multi-signature condition has its address. -/
theorem unwrap_unlockhash {H : Bytes → Bytes} {c : Condition} {os : List UnlockHash} {n : Int} (h : c.unwrap = .multiSig os n) :
    c.unlockhash H = (Condition.multiSig os n).unlockhash H := by
  rw [← h]
  cases c <;> rfl

/-- The balance of a multi-signature address is one of the owners of that address. -/
theorem multi_address {H : Bytes → Bytes} {h : History} (ht : h.address.type = 3) (hd : ∀ t ∈ h.txs, ¬ IsMintDefinition t.tx) {info : ChainInfo} {m : MultiBalance}
    (hb : h.balance H info = .ok (.multi m)) : m.address H = .ok (h.address.str H) := by
  have keep : ∀ (a : Str) (c s : Bool) (o : CoinOutput) (b b' : Option MultiBalance), MultiAt H a b → multiAddIfOf H a c s b o = .ok b' → MultiAt H a b' := by
    intro a c s o b b' hb h
    unfold multiAddIfOf at h
    obtain ⟨u, hu, h⟩ := bind_ok h
    split at h
    · rename_i hs
      cases hw : o.condition.unwrap with
      | multiSig os n =>
        rw [hw] at h
        simp only at h
        cases b with
        | some m' =>
          obtain ⟨m, hm, h⟩ := bind_ok h
          obtain ⟨x, _, h⟩ := bind_ok h
          cases hm
          cases h
          exact hb
        | none =>
          obtain ⟨m, hm, h⟩ := bind_ok h
          obtain ⟨x, _, h⟩ := bind_ok h
          cases h
          unfold MultiBalance.new at hm
          split at hm
          · cases hm
          · split at hm
            · cases hm
            · cases hm
              show MultiBalance.address H ⟨os, n, _⟩ = _
              unfold MultiBalance.address
              rw [← unwrap_unlockhash hw, hu, ← hs]
              rfl
      | _ => rw [hw] at h; cases h
    · cases h; exact hb
  have fold : ∀ (a : Str) (c s : Bool) (l : List CoinOutput) (b b' : Option MultiBalance), MultiAt H a b → l.foldlM (multiAddIfOf H a c s) b = .ok b' → MultiAt H a b' := by
    intro a c s l
    induction l with
    | nil => intro b b' hb h; cases h; exact hb
    | cons o l ih =>
      intro b b' hb h
      rw [List.foldlM_cons] at h
      obtain ⟨b1, h1, h⟩ := bind_ok h
      exact ih b1 b' (keep a c s o b b1 hb h1) h
  have all : ∀ (a : Str) (l : List ChainTx), (∀ t ∈ l, ¬ IsMintDefinition t.tx) → ∀ b b', MultiAt H a b → l.foldlM (multiAddTx H a) b = .ok b' → MultiAt H a b' := by
    intro a l
    induction l with
    | nil => intro _ b b' hb h; cases h; exact hb
    | cons t l ih =>
      intro hd b b' hb h
      rw [List.foldlM_cons] at h
      obtain ⟨b1, h1, h⟩ := bind_ok h
      refine ih (fun t ht => hd t (List.mem_cons_of_mem _ ht)) b1 b' ?_ h
      unfold multiAddTx at h1
      obtain ⟨ins, _, h1⟩ := bind_ok h1
      obtain ⟨b2, h2, h1⟩ := bind_ok h1
      obtain ⟨b3, h3, h1⟩ := bind_ok h1
      have := fold a _ _ _ b2 b3 (fold a _ _ _ b b2 hb h2) h3
      unfold multiMint at h1
      split at h1
      · rename_i v hv
        have := hd t List.mem_cons_self
        rw [hv] at this
        exact absurd trivial this
      · cases h1; exact this
  unfold History.balance at hb
  rw [if_pos ht] at hb
  obtain ⟨b, hf, hb⟩ := bind_ok hb
  cases b with
  | none => cases hb
  | some m' =>
    cases hb
    exact all _ h.txs hd none (some m') trivial hf

/-- What the multi-signature wallets of a balance count. -/
theorem shared_members {W : World} {C : Client} {own : List UnlockHash} {S : ChainState} (hi : Informed W C own S) {w : Wallets} (hw : W.balance = .ok w)
    {p : Str × MultiBalance} (hp : p ∈ w.wallets) :
    ∃ u : UnlockHash, u.type = 3 ∧ CanonicalAddress u ∧ p.1 = u.str W.H ∧ p.2.address W.H = .ok p.1 ∧ ((counted p.2.base).map CoinOutput.id).Nodup ∧
      (∀ co, co ∈ counted p.2.base ↔ (UnspentOn S co ∧ Identified co) ∧ AtAny W.H [u] co) ∧
      ∃ info : ChainInfo, info.height = S.height ∧ info.time = S.time ∧ KnowsChain p.2.base info := by
  have ho := hi.chain
  have hH : Digest32 C.H := by rw [ho.hash]; exact ho.digest
  obtain ⟨info, hh, ht, hb⟩ := ho.balance w hw
  have has := assembled_balance (fun u hu => (ho.personal u hu).1) hb
  obtain ⟨a, h, ⟨g, hown, u, hu, rfl⟩, hg, hbal, hadr⟩ := has.each p hp
  obtain ⟨v, hv, hgv⟩ := hown
  have hcan := (ho.truthful _ _ hgv).2.2 u hu
  have hu3 : u.type = 3 := by
    obtain ⟨_, _, _, _, _, _, h4⟩ := unlockhashGet_ok hgv
    obtain ⟨_, _, _, _, _, _, h9, _⟩ := readHistory_ok h4
    exact h9 u hu
  have haddr := history_address hH hcan hg
  have hsh : SharedHistory C own h := ⟨g, ⟨v, hv, hgv⟩, u, hu, hg⟩
  have hn := hi.withdrawals h (.inr hsh)
  obtain ⟨b, hbase, hbo, hkn⟩ := C63_multi_partial C _ h hg (by rw [haddr, hu3]) (truthful_coherent ho.lawful ho.truthful hg hn) (hi.mints h hsh) info _ hbal
  have : b = p.2.base := by simpa [baseOf] using hbase.symm
  subst this
  have hp1 : p.1 = u.str C.H := by
    have := multi_address (by rw [haddr, hu3]) (hi.mints h hsh) hbal
    rw [hadr, haddr] at this
    injection this
  rw [← ho.hash]
  refine ⟨u, hu3, hcan, hp1, hadr, hbo.once, ?_, info, hh, ht, hkn⟩
  rw [ho.hash]
  have hmem : ∀ co, co ∈ counted p.2.base ↔ (UnspentOn S co ∧ Identified co) ∧ AtAny W.H [u] co := by
    intro co
    constructor
    · intro hco
      have : ∃ c, Unspent C.H h co c := by
        rcases List.mem_append.1 hco with k1 | k1
        · exact ⟨_, (hbo.confirmed co).1 k1⟩
        · exact ⟨_, (hbo.unconfirmed co).1 k1⟩
      obtain ⟨c, hun⟩ := this
      refine ⟨⟨truthful_unspent ho.truthful hg hun, created_full ho.lawful ho.truthful hg hn hun.1⟩, u, by simp, ?_⟩
      obtain ⟨_, _, _, _, hat⟩ := hun.1
      rw [haddr] at hat
      rw [← ho.hash]
      exact hat
    · rintro ⟨⟨⟨⟨t, hts, hco⟩, hns⟩, hid⟩, u', hu', hat⟩
      rw [List.mem_singleton] at hu'
      subst hu'
      rw [← ho.hash] at hat
      have htin := (ho.truthful _ _ hg).2.1 t hts (by rw [haddr]; exact .inl ⟨co, hco, hat⟩)
      have hun : Unspent C.H h co (!t.unconfirmed) := by
        refine ⟨⟨t, htin, by simp, hco, by rw [haddr]; exact hat⟩, ?_⟩
        rintro ⟨t', h1, h2⟩
        exact hns ⟨t', (ho.truthful _ _ hg).1 t' h1, h2⟩
      rcases hc : t.unconfirmed with _ | _ <;> rw [hc] at hun
      · exact List.mem_append_left _ ((hbo.confirmed co).2 hun)
      · exact List.mem_append_right _ ((hbo.unconfirmed co).2 hun)
  exact hmem

/-- **C135** for the multi-signature wallets: each is filed under the text of its address and shows what that address owns on the chain. -/
theorem C135_shared_partial (W : World) (C : Client) (own : List UnlockHash) (S : ChainState) (hi : Informed W C own S) (w : Wallets) (hw : W.balance = .ok w)
    (p : Str × MultiBalance) (hp : p ∈ w.wallets) :
    ∃ u : UnlockHash, u.type = 3 ∧ CanonicalAddress u ∧ p.1 = u.str W.H ∧ p.2.address W.H = .ok p.1 ∧ ∀ n, Owned W.H S [u] n → ShowsCoins p.2.base n := by
  obtain ⟨u, h1, h2, h3, h4, h5, h6, _⟩ := shared_members hi hw hp
  exact ⟨u, h1, h2, h3, h4, fun n hn => showsCoins_of hi.chain.lawful h5 h6 hn⟩

/-! ## The ledger -/

/-- What addresses own changes by what is spent and paid there. -/
theorem accepts_holds {H : Bytes → Bytes} {S S' : ChainState} (hl : LawfulChain S) {t : Tx} (ha : Accepts S t S') {l : List CoinInput} {spent : List CoinOutput}
    (hi : t.coinInputs = some l) (hids : l.map CoinInput.parentId = spent.map CoinOutput.id) (hnd : (l.map CoinInput.parentId).Nodup)
    (hun : ∀ co ∈ spent, UnspentOn S co ∧ Identified co) (own : List UnlockHash) (n : Nat) (hn : Owned H S own n) :
    ∃ n', Owned H S' own n' ∧ n' + (open Classical in total (spent.filter fun co => decide (AtAny H own co))) = n + paidTo H own t := by
  classical
  obtain ⟨e, e1, e2, e3, e4, e5, e6⟩ := ha.entry
  have hsn : spent.Nodup := by rw [hids] at hnd; exact hnd.of_map _
  have hmem : ∀ x, x ∈ S'.txs ↔ x ∈ S.txs ∨ x = e := by intro x; rw [e1]; simp
  have hcr : ∀ co, CreatedOn S' co ↔ CreatedOn S co ∨ co ∈ e.tx.coinOutputs := by
    intro co
    constructor
    · rintro ⟨x, hx, hco⟩
      rcases (hmem x).1 hx with hx | rfl
      · exact .inl ⟨x, hx, hco⟩
      · exact .inr hco
    · rintro (⟨x, hx, hco⟩ | hco)
      · exact ⟨x, (hmem x).2 (.inl hx), hco⟩
      · exact ⟨e, (hmem e).2 (.inr rfl), hco⟩
  have hei : ∃ l', e.tx.coinInputs = some l' ∧ l'.map CoinInput.parentId = spent.map CoinOutput.id := by
    rw [hi] at e3
    cases he : e.tx.coinInputs with
    | none => rw [he] at e3; cases e3
    | some l' =>
      rw [he] at e3
      simp only [Option.map_some, Option.some.injEq] at e3
      exact ⟨l', rfl, e3.trans hids⟩
  obtain ⟨l', he, hl'⟩ := hei
  have hsp : ∀ id, Spends e.tx id ↔ ∃ co ∈ spent, co.id = id := by
    intro id
    constructor
    · rintro ⟨l2, h2, ci, hci, rfl⟩
      rw [he] at h2; cases h2
      have : ci.parentId ∈ spent.map CoinOutput.id := by rw [← hl']; exact List.mem_map.2 ⟨ci, hci, rfl⟩
      obtain ⟨co, h3, h4⟩ := List.mem_map.1 this
      exact ⟨co, h3, h4⟩
    · rintro ⟨co, hco, rfl⟩
      have : co.id ∈ l'.map CoinInput.parentId := by rw [hl']; exact List.mem_map.2 ⟨co, hco, rfl⟩
      obtain ⟨ci, h3, h4⟩ := List.mem_map.1 this
      exact ⟨l', he, ci, h3, h4⟩
  have hspo : ∀ id, SpentOn S' id ↔ SpentOn S id ∨ ∃ co ∈ spent, co.id = id := by
    intro id
    constructor
    · rintro ⟨x, hx, hs⟩
      rcases (hmem x).1 hx with hx | rfl
      · exact .inl ⟨x, hx, hs⟩
      · exact .inr ((hsp id).1 hs)
    · rintro (⟨x, hx, hs⟩ | hs)
      · exact ⟨x, (hmem x).2 (.inl hx), hs⟩
      · exact ⟨e, (hmem e).2 (.inr rfl), (hsp id).2 hs⟩
  have hunsp : ∀ co, (UnspentOn S' co ∧ Identified co) ↔ ((UnspentOn S co ∧ Identified co) ∧ co ∉ spent) ∨ co ∈ e.tx.coinOutputs := by
    intro co
    constructor
    · rintro ⟨⟨hc, hns⟩, hid⟩
      rcases (hcr co).1 hc with hc | hc
      · refine .inl ⟨⟨⟨hc, fun h => hns ((hspo _).2 (.inl h))⟩, hid⟩, fun h => hns ((hspo _).2 (.inr ⟨co, h, rfl⟩))⟩
      · exact .inr hc
    · rintro (⟨⟨⟨hc, hns⟩, hid⟩, hnot⟩ | hc)
      · refine ⟨⟨(hcr co).2 (.inl hc), ?_⟩, hid⟩
        intro h
        rcases (hspo _).1 h with h | ⟨co', h1, h2⟩
        · exact hns h
        · exact hnot (by rw [mem_of_ids hl hc (hun co' h1).1.1 hid h2.symm]; exact h1)
      · obtain ⟨k1, k2, k3, k4⟩ := e4 co hc
        refine ⟨⟨(hcr co).2 (.inr hc), ?_⟩, k1⟩
        intro h
        rcases (hspo _).1 h with h | ⟨co', h1, h2⟩
        · exact k3 h
        · exact k4 co' (hun co' h1).1.1 h2
  obtain ⟨k, hk, hkm, rfl⟩ := hn
  let P : CoinOutput → Bool := fun co => decide (AtAny H own co)
  have hpaid : total (e.tx.coinOutputs.filter P) = paidTo H own t := by
    have key : ∀ (a b : List CoinOutput), a.map pays = b.map pays → total (a.filter P) = total (b.filter P) := by
      intro a
      induction a with
      | nil => intro b h; cases b with
        | nil => rfl
        | cons _ _ => cases h
      | cons x a ih =>
        intro b h
        cases b with
        | nil => cases h
        | cons y b =>
          simp only [List.map_cons, List.cons.injEq] at h
          obtain ⟨h1, h2⟩ := h
          simp only [pays, Prod.mk.injEq] at h1
          have hx : AtAny H own x ↔ AtAny H own y := by simp only [AtAny, AtAddress, h1.2]
          have hP : P x = P y := by simp only [P, hx]
          rw [List.filter_cons, List.filter_cons, hP]
          split
          · rw [total_cons, total_cons, ih b h2, h1.1]
          · exact ih b h2
    exact key _ _ e2
  refine ⟨total (k.filter (fun co => !decide (co ∈ spent))) + total (e.tx.coinOutputs.filter P),
    ⟨k.filter (fun co => !decide (co ∈ spent)) ++ e.tx.coinOutputs.filter P, ?_, ?_, total_append _ _⟩, ?_⟩
  · refine List.nodup_append.2 ⟨hk.filter _, (e5.of_map _).filter _, ?_⟩
    intro a ha b hb hab
    subst hab
    exact (e4 a (List.mem_filter.1 hb).1).2.2.2 a ((hkm a).1 (List.mem_filter.1 ha).1).1.1.1 rfl
  · intro co
    rw [hunsp co, List.mem_append, List.mem_filter, hkm co, List.mem_filter]
    simp only [P, Bool.not_eq_true', decide_eq_false_iff_not, decide_eq_true_eq]
    tauto
  · have h1 : total k = total (k.filter (· ∈ spent)) + total (k.filter (fun co => !decide (co ∈ spent))) := by
      rw [← total_append]
      exact (total_perm (List.filter_append_perm _ k)).symm
    have h2 : total (k.filter (· ∈ spent)) = total (spent.filter P) := by
      apply total_perm
      refine (List.perm_ext_iff_of_nodup (hk.filter _) (hsn.filter _)).2 ?_
      intro co
      rw [List.mem_filter, hkm co, List.mem_filter]
      simp only [P, decide_eq_true_eq]
      constructor
      · rintro ⟨⟨_, h⟩, h'⟩; exact ⟨h', h⟩
      · rintro ⟨h', h⟩; exact ⟨⟨hun co h', h⟩, h'⟩
    rw [← hpaid]
    have : total (spent.filter fun co => decide (AtAny H own co)) = total (spent.filter P) := rfl
    omega

theorem owned_exists (H : Bytes → Bytes) (S : ChainState) (own : List UnlockHash) : ∃ n, Owned H S own n := by
  classical
  refine ⟨_, ((chainOutputs S).dedup.filter fun co => decide ((UnspentOn S co ∧ Identified co) ∧ AtAny H own co)), (List.nodup_dedup _).filter _, ?_, rfl⟩
  intro co
  rw [List.mem_filter, List.mem_dedup, mem_chainOutputs]
  simp only [decide_eq_true_eq]
  exact ⟨fun h => h.2, fun h => ⟨h.1.1.1, h⟩⟩

/-- What a paying call spends is offered: at own addresses, or at shared ones if a source is given. -/
theorem paying_spent {W : World} {C : Client} {own : List UnlockHash} {S : ChainState} (hi : Informed W C own S) {src : Source} {refund : Recipient} {o : Outcome (Tx × Bool)}
    (call : Paying W src refund o) {t : Tx} (posted : t ∈ o.posted) :
    ∃ l spent, t.coinInputs = some l ∧ l.map CoinInput.parentId = spent.map CoinOutput.id ∧ (l.map CoinInput.parentId).Nodup ∧
      (∀ co ∈ spent, UnspentOn S co ∧ Identified co) ∧ total spent = total t.coinOutputs + amount W.fee + charged t ∧
      ∀ co ∈ spent, ∃ u, (u ∈ own ∨ u.type = 3 ∧ src ≠ .none) ∧ CanonicalAddress u ∧ AtAddress W.H (u.str W.H) co := by
  obtain ⟨l, spent, h1, _, h3, h4, h5, _, h7⟩ := (C120_valid_partial W C own S hi.chain hi.mints hi.withdrawals hi.fee hi.positive src refund o call t posted).inputs
  refine ⟨l, spent, h1, h4, h3, fun co hco => ⟨(h5 co hco).2.1, (h5 co hco).1⟩, h7, ?_⟩
  obtain ⟨w, hw⟩ := paying_balance call (.inl posted)
  obtain ⟨_, _, hs⟩ := offered_all hi.chain hi.mints hi.withdrawals hw
  obtain ⟨_, _, l', k1, k2, _⟩ := paying_funds hw hs hi.fee call (.inl posted)
  rw [h1] at k1; cases k1
  obtain ⟨g1, _, _, info, g4⟩ := offered_spec hi.chain hi.mints hi.withdrawals hw
  rw [hi.chain.hash] at g1 g4
  intro co hco
  obtain ⟨hid, hun, _⟩ := h5 co hco
  have : co.id ∈ l.map CoinInput.parentId := by rw [h4]; exact List.mem_map.2 ⟨co, hco, rfl⟩
  obtain ⟨ci, hci, e⟩ := List.mem_map.1 this
  obtain ⟨co', hel, e', _⟩ := k2 ci hci
  cases hel with
  | personal u offered _ _ =>
    obtain ⟨f, v, h1, _, h3, h4⟩ := g1 co' offered
    obtain rfl := mem_of_ids hi.chain.lawful f.2.1.1 hun.1 f.1 (e'.symm.trans e)
    exact ⟨v, .inl h1, h3, h4⟩
  | multi name m u wallet offered _ given _ =>
    obtain ⟨v, _, ⟨h2, h3, _⟩, _, _, h5, _⟩ := g4 _ wallet
    obtain ⟨f, a⟩ := h5 co' offered
    obtain rfl := mem_of_ids hi.chain.lawful f.2.1.1 hun.1 f.1 (e'.symm.trans e)
    exact ⟨v, .inr ⟨h2, given⟩, h3, a⟩

/-- **C135.** When the network takes what another wallet submits (a payment, a conversion, a 3Bot operation, a registration), the personal addresses `theirs` own as much more as
it pays to them. -/
theorem C135_grows_partial (W : World) (C : Client) (own theirs : List UnlockHash) (S S' : ChainState) (hi : Informed W C own S) (src : Source) (refund : Recipient)
    (o : Outcome (Tx × Bool)) (call : Paying W src refund o) (t : Tx) (posted : t ∈ o.posted) (taken : Accepts S t S')
    (personal : ∀ u ∈ theirs, u.type = 1 ∧ CanonicalAddress u) (others : ∀ u ∈ theirs, u ∉ own) (n : Nat) (hn : Owned W.H S theirs n) :
    Owned W.H S' theirs (n + paidTo W.H theirs t) := by
  obtain ⟨l, spent, h1, h2, h3, h4, _, h6⟩ := paying_spent hi call posted
  obtain ⟨n', k1, k2⟩ := accepts_holds hi.chain.lawful taken h1 h2 h3 h4 theirs n hn
  have hz : (open Classical in spent.filter fun co => decide (AtAny W.H theirs co)) = [] := by
    classical
    rw [List.filter_eq_nil_iff]
    intro co hco
    simp only [decide_eq_true_eq]
    rintro ⟨u, hu, hat⟩
    obtain ⟨v, hv, hc, hat'⟩ := h6 co hco
    obtain rfl := text_inj hi.chain.digest (personal u hu).2 hc (at_inj hat hat')
    rcases hv with hv | ⟨hv, _⟩
    · exact others u hu hv
    · rw [(personal u hu).1] at hv; exact absurd hv (by decide)
  rw [hz, total_nil] at k2
  rw [← k2]
  exact k1

/-- **C135.** When the network takes what the wallet submits from its personal addresses, these own as much less as it pays to others, with the miner fee and what is charged. -/
theorem C135_shrinks_partial (W : World) (C : Client) (own : List UnlockHash) (S S' : ChainState) (hi : Informed W C own S) (refund : Recipient) (o : Outcome (Tx × Bool))
    (call : Paying W .none refund o) (t : Tx) (posted : t ∈ o.posted) (taken : Accepts S t S') (n : Nat) (hn : Owned W.H S own n) :
    ∃ n', Owned W.H S' own n' ∧ n' + total t.coinOutputs + amount W.fee + charged t = n + paidTo W.H own t := by
  obtain ⟨l, spent, h1, h2, h3, h4, h5, h6⟩ := paying_spent hi call posted
  obtain ⟨n', k1, k2⟩ := accepts_holds hi.chain.lawful taken h1 h2 h3 h4 own n hn
  have hz : (open Classical in spent.filter fun co => decide (AtAny W.H own co)) = spent := by
    classical
    rw [List.filter_eq_self]
    intro co hco
    simp only [decide_eq_true_eq]
    obtain ⟨v, hv, _, hat⟩ := h6 co hco
    exact ⟨v, hv.resolve_right (fun h => h.2 rfl), hat⟩
  rw [hz, h5] at k2
  exact ⟨n', k1, by omega⟩

theorem toAny_at {H : Bytes → Bytes} {own : List UnlockHash} {co : CoinOutput} : AtAny H own co ↔ ToAny H own co.condition := Iff.rfl

/-- **C135.** One wallet sends coins to an address of another one, from its own addresses. What its balance shows before is the amount sent and the miner fee more than what it
shows afterwards; what the balance of the other one shows before is the amount sent less than what it shows afterwards. -/
theorem C135_arrives_partial (W W' R R' : World) (C C' D D' : Client) (own theirs : List UnlockHash) (S S' : ChainState)
    (payer : Informed W C own S) (payer' : Informed W' C' own S') (payee : Informed R D theirs S) (payee' : Informed R' D' theirs S')
    (a1 : Answering C own S) (a2 : Answering C' own S') (a3 : Answering D theirs S) (a4 : Answering D' theirs S')
    (same : W'.H = W.H ∧ R.H = W.H ∧ R'.H = W.H) (others : ∀ u ∈ theirs, u ∉ own)
    (primary : ∀ u, Names W.H W.keys.primary u → u ∈ own)
    (r : Recipient) (amt : CVal) (legal : ∀ c, amt = .cur c → GoodCurrency c) (lock : LockVal) (data : DataArg) (chain : r.erc20? = none) (v : Nat) (c : Condition)
    (hask : asked W.H r amt lock = some (v, c)) (payable : ToAny W.H theirs c)
    (t : Tx) (posted : t ∈ (W.coinsSend r amt .none .none lock data).posted) (taken : Accepts S t S')
    (w w' b b' : Wallets) (hw : W.balance = .ok w) (hw' : W'.balance = .ok w') (hb : R.balance = .ok b) (hb' : R'.balance = .ok b') :
    ∃ n m, ShowsCoins w.base (n + v + amount W.fee) ∧ ShowsCoins w'.base n ∧ ShowsCoins b.base m ∧ ShowsCoins b'.base (m + v) := by
  obtain ⟨e1, e2, e3⟩ := same
  have call : Paying W .none .none (W.coinsSend r amt .none .none lock data) := .coins r amt lock data legal
  obtain ⟨_, _, hs⟩ := offered_all payer.chain payer.mints payer.withdrawals hw
  obtain ⟨pay, hp, hpay⟩ := C56_coins_send_partial W w r amt .none .none lock data t hw hs payer.fee legal chain (.inl posted)
  rw [hask] at hp
  cases hp
  obtain ⟨x, rfl, _⟩ := hpay.standard
  obtain ⟨rest, ho, hr⟩ := hpay.outputs
  -- whose outputs they are
  have hto : ¬ ToAny W.H own c := by
    rintro ⟨u, hu, y, hy, e⟩
    obtain ⟨u', hu', y', hy', e'⟩ := payable
    rw [hy] at hy'; cases hy'
    have := text_inj payer.chain.digest (payer.chain.personal u hu).2 (by
      have := (payee.chain.personal u' hu').2
      exact this) (e.symm.trans e')
    subst this
    exact others u hu' hu
  have hrest : ∀ p ∈ rest, ToAny W.H own p.2 ∧ ¬ ToAny W.H theirs p.2 := by
    intro p hp
    rcases hr with rfl | ⟨k, c', rfl, _, hre⟩
    · simp at hp
    · rw [List.mem_singleton] at hp
      subst hp
      generalize hsrc : Source.none = src0 at hre
      cases hre with
      | given _ _ h _ => exact absurd rfl h
      | source u single _ => subst hsrc; exact absurd single (by simp [SingleSource])
      | multi u m _ single _ _ _ => subst hsrc; exact absurd single (by simp [SingleSource])
      | primary u _ hu =>
        have hown := primary u hu
        refine ⟨⟨u, hown, u, rfl, rfl⟩, ?_⟩
        rintro ⟨u', hu', y, hy, e⟩
        cases hy
        have := text_inj payer.chain.digest (payer.chain.personal u hown).2 (payee.chain.personal u' hu').2 e
        subst this
        exact others u hu' hown
  have split : ∀ (l : List CoinOutput) (ps : List (Nat × Condition)), l.map (fun co => (amount co.value, co.condition)) = ps →
      (∀ p ∈ ps, ToAny W.H own p.2 ∧ ¬ ToAny W.H theirs p.2) →
      (open Classical in total (l.filter fun co => decide (AtAny W.H own co))) = total l ∧
      (open Classical in total (l.filter fun co => decide (AtAny W.H theirs co))) = 0 := by
    classical
    rintro l ps rfl h
    have h' : ∀ co ∈ l, AtAny W.H own co ∧ ¬ AtAny W.H theirs co := fun co hco => h _ (List.mem_map.2 ⟨co, hco, rfl⟩)
    rw [List.filter_eq_self.2 fun co hco => decide_eq_true (h' co hco).1, List.filter_eq_nil_iff.2 fun co hco => by simpa using (h' co hco).2]
    exact ⟨rfl, rfl⟩
  have hsum : paidTo W.H theirs (.v1 x) = v ∧ total (Tx.v1 x).coinOutputs = v + paidTo W.H own (.v1 x) := by
    classical
    cases hl : (Tx.v1 x).coinOutputs with
    | nil => rw [hl] at ho; simp at ho
    | cons a l =>
      rw [hl] at ho
      simp only [List.map_cons, List.cons_append, List.nil_append, List.cons.injEq, Prod.mk.injEq] at ho
      obtain ⟨⟨ha, hc⟩, ho⟩ := ho
      obtain ⟨k1, k2⟩ := split l rest ho hrest
      have i1 : AtAny W.H theirs a := by rw [toAny_at, hc]; exact payable
      have i2 : ¬ AtAny W.H own a := by rw [toAny_at, hc]; exact hto
      unfold paidTo
      rw [hl, List.filter_cons, if_pos (decide_eq_true i1), List.filter_cons, if_neg (by simpa using i2), total_cons, total_cons, ha, k1, k2]
      exact ⟨by omega, by omega⟩
  obtain ⟨n0, hn0⟩ := owned_exists W.H S own
  obtain ⟨m, hm⟩ := owned_exists W.H S theirs
  obtain ⟨n, hn, hsh⟩ := C135_shrinks_partial W C own S S' payer .none _ call _ posted taken n0 hn0
  have hg := C135_grows_partial W C own theirs S S' payer .none .none _ call _ posted taken payee.chain.personal others m hm
  rw [hsum.1] at hg
  have hch : charged (.v1 x) = 0 := rfl
  have hn0e : n0 = n + v + amount W.fee := by omega
  refine ⟨n, m, ?_, ?_, ?_, ?_⟩
  · rw [← hn0e]; exact C135_shows_partial W C own S payer a1 w hw n0 hn0
  · exact C135_shows_partial W' C' own S' payer' a2 w' hw' n (by rw [e1]; exact hn)
  · exact C135_shows_partial R D theirs S payee a3 b hb m (by rw [e2]; exact hm)
  · exact C135_shows_partial R' D' theirs S' payee' a4 b' hb' _ (by rw [e3]; exact hg)

/-! ## A payment from one wallet to another -/

/-- The payment of 3 TFT out of 4 TFT, as explorers describe it. -/
def entryPays : Json :=
  entryOf { coinInputs := [⟨⟨List.replicate 32 21⟩, .single key1 none, none⟩],
            coinOutputs := [⟨⟨some ⟨false, 3, 0⟩⟩, .unlockHash (addrOf key2), ⟨[]⟩⟩, ⟨⟨some ⟨false, 9, -1⟩⟩, .unlockHash (addrOf key1), ⟨[]⟩⟩], minerFees := [⟨some ⟨false, 1, -1⟩⟩] }
    ⟨List.replicate 32 18⟩ [⟨⟨some ⟨false, 4, 0⟩⟩, coinA.condition, ⟨List.replicate 32 21⟩⟩] [⟨List.replicate 32 51⟩, ⟨List.replicate 32 52⟩] 7 false

/-- What explorers know before and after it. -/
def beforeList : List (UnlockHash × List Json × List UnlockHash) :=
  [(addrOf key1, [entryCreates 5, entrySpendsA, entryCreatesN 6], [nAddr]), (nAddr, [entryCreatesN 6], []), (addrOf key2, [], [])]
@[inherit_doc beforeList] def afterList : List (UnlockHash × List Json × List UnlockHash) :=
  [(addrOf key1, [entryCreates 5, entrySpendsA, entryCreatesN 6, entryPays], [nAddr]), (nAddr, [entryCreatesN 6], []), (addrOf key2, [entryPays], [])]
@[inherit_doc beforeList] def beforeChain : ChainState := ⟨historyTxs ((explorerOf beforeList).unlockhashGet (.str ((addrOf key1).str toyHash))), 100, 1550000000⟩
/-- What it adds. -/
def addedTxs : List ChainTx := historyTxs ((explorerOf afterList).unlockhashGet (.str ((addrOf key2).str toyHash)))
@[inherit_doc beforeList] def afterChain : ChainState := ⟨beforeChain.txs ++ addedTxs, 100, 1550000000⟩

theorem list_addresses : (∀ p ∈ beforeList, CanonicalAddress p.1) ∧ ∀ p ∈ afterList, CanonicalAddress p.1 := by
  constructor <;> intro p hp <;> simp only [beforeList, afterList, List.mem_cons, List.not_mem_nil, or_false] at hp <;> rcases hp with rfl | rfl | rfl <;>
    exact .inl (by decide +kernel)

/-- The payer knows the first key, the payee the second. -/
def payerOn (l : List (UnlockHash × List Json × List UnlockHash)) : World := onExplorer (explorerOf l)
@[inherit_doc payerOn] def payeeAt (C : Client) : World :=
  { demoWorld with keys := { seed := [], pairs := [((addrOf key2).str toyHash, key2)], primary := (addrOf key2).str toyHash }
                   balance := walletsIn (C.walletBalance (.ok infoDemo) ([addrOf key2].map fun u => u.str C.H)) }
@[inherit_doc payerOn] def payeeOn (l : List (UnlockHash × List Json × List UnlockHash)) : World := payeeAt (explorerOf l)

theorem payeeAt_balance (C : Client) : (payeeAt C).balance = walletsIn (C.walletBalance (.ok infoDemo) ([addrOf key2].map fun u => u.str C.H)) := rfl
theorem payeeOn_balance (l : List (UnlockHash × List Json × List UnlockHash)) :
    (payeeOn l).balance = walletsIn ((explorerOf l).walletBalance (.ok infoDemo) ([addrOf key2].map fun u => u.str (explorerOf l).H)) := payeeAt_balance _

theorem payee_onChain {l : List (UnlockHash × List Json × List UnlockHash)} {S : ChainState} (hl : ∀ p ∈ l, CanonicalAddress p.1)
    (h : (l.all fun p => match (explorerOf l).unlockhashGet (.str (p.1.str toyHash)) with | .ok h => truthCheck toyHash S h | .error _ => true) = true)
    (hS : lawfulCheck S = true) (h1 : S.height = 100) (h2 : S.time = 1550000000) : OnChain (payeeOn l) (explorerOf l) [addrOf key2] S := by
  refine ⟨rfl, toyHash_digest, ?_, ?_, lawful_of_check hS, truthful_explorer hl h⟩
  · intro u hu
    rw [List.mem_singleton.1 hu]
    exact ⟨by decide +kernel, .inl (by decide +kernel)⟩
  · intro w hw
    refine ⟨infoDemo, h1.symm, h2.symm, ?_⟩
    rw [payeeOn_balance] at hw
    unfold walletsIn at hw
    split at hw
    · rename_i x hx; cases hw; exact hx
    · cases hw
    · cases hw

theorem before_truth : (beforeList.all fun p => match (explorerOf beforeList).unlockhashGet (.str (p.1.str toyHash)) with
    | .ok h => truthCheck toyHash beforeChain h | .error _ => true) = true := by decide +kernel
theorem after_truth : (afterList.all fun p => match (explorerOf afterList).unlockhashGet (.str (p.1.str toyHash)) with
    | .ok h => truthCheck toyHash afterChain h | .error _ => true) = true := by decide +kernel
theorem before_lawful : lawfulCheck beforeChain = true := by decide +kernel
theorem after_lawful : lawfulCheck afterChain = true := by decide +kernel

theorem arrive_informed : Informed (payerOn beforeList) (explorerOf beforeList) [addrOf key1] beforeChain ∧ Informed (payerOn afterList) (explorerOf afterList) [addrOf key1] afterChain ∧
    Informed (payeeOn beforeList) (explorerOf beforeList) [addrOf key2] beforeChain ∧ Informed (payeeOn afterList) (explorerOf afterList) [addrOf key2] afterChain := by
  obtain ⟨l1, l2⟩ := list_addresses
  have m1 : noneIs mints beforeList = true := by decide +kernel
  have m2 : noneIs mints afterList = true := by decide +kernel
  have n1 : noneIs withdraws beforeList = true := by decide +kernel
  have n2 : noneIs withdraws afterList = true := by decide +kernel
  exact ⟨⟨onChain_of l1 before_truth before_lawful rfl rfl, noMinting_of l1 m1 _, noWithdrawals_of l1 n1 _, ⟨rfl, by decide⟩, by decide⟩,
    ⟨onChain_of l2 after_truth after_lawful rfl rfl, noMinting_of l2 m2 _, noWithdrawals_of l2 n2 _, ⟨rfl, by decide⟩, by decide⟩,
    ⟨payee_onChain l1 before_truth before_lawful rfl rfl, noMinting_of l1 m1 _, noWithdrawals_of l1 n1 _, ⟨rfl, by decide⟩, by decide⟩,
    ⟨payee_onChain l2 after_truth after_lawful rfl rfl, noMinting_of l2 m2 _, noWithdrawals_of l2 n2 _, ⟨rfl, by decide⟩, by decide⟩⟩

theorem answers_of {C : Client} {u : UnlockHash} {S : ChainState} (h : (match C.unlockhashGet (.str (u.str C.H)) with | .ok _ => true | .error _ => false) = true) :
    Answering C [u] S := by
  intro v hv _
  rw [List.mem_singleton] at hv
  subst hv
  cases e : C.unlockhashGet (.str (v.str C.H)) with
  | ok g => exact ⟨g, rfl⟩
  | error e' => rw [e] at h; cases h

/-- The network takes what the wallet submits. -/
theorem arrive_taken : ∃ t, t ∈ ((payerOn beforeList).coinsSend (.uh (addrOf key2)) (.int 3) .none .none .none .none).posted ∧ Accepts beforeChain t afterChain := by
  have h1 : ((payerOn beforeList).coinsSend (.uh (addrOf key2)) (.int 3) .none .none .none .none).posted.map (fun (t : Tx) =>
      (t.coinOutputs.map pays, t.coinInputs.map (List.map CoinInput.parentId))) =
      addedTxs.map fun e => (e.tx.coinOutputs.map pays, e.tx.coinInputs.map (List.map CoinInput.parentId)) := by decide +kernel
  have hlen : addedTxs.length = 1 := by decide +kernel
  have hids : (addedTxs.flatMap fun e => e.tx.coinOutputs.map CoinOutput.id) = [⟨List.replicate 32 51⟩, ⟨List.replicate 32 52⟩] := by decide +kernel
  have hfresh : freshCheck beforeChain [⟨List.replicate 32 51⟩, ⟨List.replicate 32 52⟩] = true := by decide +kernel
  obtain ⟨e, he⟩ := List.length_eq_one_iff.1 hlen
  rw [he] at h1 hids
  obtain ⟨t, ht, e1⟩ := List.map_eq_singleton_iff.1 h1
  simp only [Prod.mk.injEq] at e1
  have hl := lawful_of_check after_lawful
  have hin : e ∈ afterChain.txs := List.mem_append_right _ (by rw [he]; simp)
  simp only [List.flatMap_cons, List.flatMap_nil, List.append_nil] at hids
  refine ⟨t, by rw [ht]; simp, ⟨e, by show beforeChain.txs ++ addedTxs = _; rw [he], e1.1.symm, e1.2.symm, ?_, ?_, ?_⟩, Int.le_refl _, Int.le_refl _⟩
  · intro co hco
    have hm : co.id ∈ ([⟨List.replicate 32 51⟩, ⟨List.replicate 32 52⟩] : List Hash) := by rw [← hids]; exact List.mem_map.2 ⟨co, hco, rfl⟩
    obtain ⟨k1, k2, k3⟩ := fresh_of_check hfresh co.id hm
    exact ⟨k1, hl.amounts co ⟨e, hin, hco⟩, k2, k3⟩
  · rw [hids]; decide
  · intro l k1 ci k2 co ⟨x, hx, hco⟩ k4 k5
    exact hl.parents e hin l k1 ci k2 co ⟨x, List.mem_append_left _ hx, hco⟩ k4 k5

/-- The four amounts of the balances: the payer had 4 TFT and has 0.9 TFT, the payee had nothing and has 3 TFT. -/
theorem arrive_balances : ∃ w w' b b', (payerOn beforeList).balance = .ok w ∧ (payerOn afterList).balance = .ok w' ∧ (payeeOn beforeList).balance = .ok b ∧
    (payeeOn afterList).balance = .ok b' ∧ ShowsCoins w.base (4 * 10 ^ 9) ∧ ShowsCoins w'.base (9 * 10 ^ 8) ∧ ShowsCoins b.base 0 ∧ ShowsCoins b'.base (3 * 10 ^ 9) := by
  have key : ∀ (r : Res Wallets) (n : Nat), (do
      let w ← r
      let a ← w.base.availableCoins
      let l ← w.base.lockedCoins
      let ua ← w.base.unconfCoins
      let ul ← w.base.unconfLockedCoins
      return amount a + amount l + amount ua + amount ul) = .ok n → ∃ w, r = .ok w ∧ ShowsCoins w.base n := by
    intro r n h
    obtain ⟨w, h0, h⟩ := bind_ok h
    obtain ⟨a, h1, h⟩ := bind_ok h
    obtain ⟨l, h2, h⟩ := bind_ok h
    obtain ⟨ua, h3, h⟩ := bind_ok h
    obtain ⟨ul, h4, h⟩ := bind_ok h
    cases h
    exact ⟨w, h0, a, l, ua, ul, h1, h2, h3, h4, rfl⟩
  obtain ⟨w, h1, s1⟩ := key (payerOn beforeList).balance (4 * 10 ^ 9) (by decide +kernel)
  obtain ⟨w', h2, s2⟩ := key (payerOn afterList).balance (9 * 10 ^ 8) (by decide +kernel)
  obtain ⟨b, h3, s3⟩ := key (payeeOn beforeList).balance 0 (by decide +kernel)
  obtain ⟨b', h4, s4⟩ := key (payeeOn afterList).balance (3 * 10 ^ 9) (by decide +kernel)
  exact ⟨w, w', b, b', h1, h2, h3, h4, s1, s2, s3, s4⟩

/-- The payer has a multi-signature wallet, which shows 4 TFT. -/
example : ((payerOn beforeList).balance.bind fun w => .ok (w.wallets.map fun p => (p.1 = nAddr.str toyHash : Bool))) = .ok [true] := by decide +kernel

/-- The hypotheses of the theorems are met by a payment of 3 TFT. -/
example : ∃ t w w' b b', Informed (payerOn beforeList) (explorerOf beforeList) [addrOf key1] beforeChain ∧
    Informed (payerOn afterList) (explorerOf afterList) [addrOf key1] afterChain ∧ Informed (payeeOn beforeList) (explorerOf beforeList) [addrOf key2] beforeChain ∧
    Informed (payeeOn afterList) (explorerOf afterList) [addrOf key2] afterChain ∧ Answering (explorerOf beforeList) [addrOf key1] beforeChain ∧
    Answering (explorerOf afterList) [addrOf key1] afterChain ∧ Answering (explorerOf beforeList) [addrOf key2] beforeChain ∧
    Answering (explorerOf afterList) [addrOf key2] afterChain ∧ (∀ u ∈ [addrOf key2], u ∉ [addrOf key1]) ∧
    (∀ u, Names (payerOn beforeList).H (payerOn beforeList).keys.primary u → u ∈ [addrOf key1]) ∧
    asked toyHash (.uh (addrOf key2)) (.int 3) .none = some (3 * 10 ^ 9, .unlockHash (addrOf key2)) ∧ ToAny toyHash [addrOf key2] (.unlockHash (addrOf key2)) ∧
    t ∈ ((payerOn beforeList).coinsSend (.uh (addrOf key2)) (.int 3) .none .none .none .none).posted ∧ Accepts beforeChain t afterChain ∧
    (payerOn beforeList).balance = .ok w ∧ (payerOn afterList).balance = .ok w' ∧ (payeeOn beforeList).balance = .ok b ∧ (payeeOn afterList).balance = .ok b' := by
  obtain ⟨t, h1, h2⟩ := arrive_taken
  obtain ⟨w, w', b, b', k1, k2, k3, k4, _⟩ := arrive_balances
  obtain ⟨i1, i2, i3, i4⟩ := arrive_informed
  refine ⟨t, w, w', b, b', i1, i2, i3, i4, answers_of (by decide +kernel), answers_of (by decide +kernel), answers_of (by decide +kernel), answers_of (by decide +kernel),
    by decide +kernel, ?_, by decide +kernel, ⟨addrOf key2, by simp, addrOf key2, rfl, rfl⟩, h1, h2, k1, k2, k3, k4⟩
  intro u hu
  have : UnlockHash.fromJson toyHash (.str ((addrOf key1).str toyHash)) = .ok (addrOf key1) := by decide +kernel
  have hu : UnlockHash.fromJson toyHash (.str ((addrOf key1).str toyHash)) = .ok u := hu
  rw [this] at hu
  cases hu
  simp

end TF.Props
