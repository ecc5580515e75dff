import Verif.Props.History
import Verif.Spec.WalletBalance
/-! # C96: the balance of a wallet -/
namespace TF.Props
open TF TF.Spec

theorem text_type {H : Bytes → Bytes} {u v : UnlockHash} (ht : u.type = 1 ∨ u.type = 3) (h : UnlockHash.fromStr H (u.str H) = .ok v) : v.type = u.type := by
  have := (C23_accepted_address_partial H _ _ h).2.1
  have h2 : (u.str H).take 2 = toHex [u.type] := by
    unfold UnlockHash.str
    rw [List.append_assoc, List.take_append_of_le_length (by rw [toHex_length]; simp)]
    exact List.take_of_length_le (by rw [toHex_length]; simp)
  rw [h2] at this
  have h3 : pyInt (toHex [u.type]) = some (u.type.toNat : Int) := by
    rcases ht with h | h <;> rw [h] <;> decide
  rw [h3] at this
  simp only [Option.some.injEq, Int.natCast_inj] at this
  exact (UInt8.toNat_inj.1 this).symm

theorem history_type {C : Client} {u : UnlockHash} (ht : u.type = 1 ∨ u.type = 3) {h : History} (hh : C.unlockhashGet (.str (u.str C.H)) = .ok h) :
    h.address.type = u.type := by
  obtain ⟨c, v, resp, h1, h2, _, h4⟩ := unlockhashGet_ok hh
  obtain ⟨_, _, _, _, _, hn, _⟩ := readHistory_ok h4
  obtain ⟨c1, hc, h1⟩ := bind_ok h1
  cases h1
  obtain ⟨w, hw, hc⟩ := bind_ok (show (UnlockHash.fromStr C.H (u.str C.H) >>= fun x => pure (Condition.unlockHash x)) = .ok c from hc)
  cases hc
  cases h2
  have h5 := text_type ht hw
  rw [← h5] at ht
  rw [← h5]
  exact text_type ht hn

theorem filed_update {m o : OutMap} (hm : Filed m) (ho : Filed o) : Filed (m.update o) := by
  intro p hp
  rcases OutMap.mem_update hp with h | h
  · exact hm p h
  · exact ho p h

theorem values_update {m o : OutMap} (hm : Filed m) (ho : Filed o) (hx : ∀ x ∈ m.values ++ o.values, ∀ y ∈ m.values ++ o.values, x.id = y.id → x = y)
    {co : CoinOutput} : co ∈ (m.update o).values ↔ co ∈ m.values ∨ co ∈ o.values := by
  unfold OutMap.update
  induction o generalizing m with
  | nil => simp [OutMap.values]
  | cons p o ih =>
    have hp : p.1 = p.2.id := ho p List.mem_cons_self
    have hv : ∀ x, x ∈ (m.put p.1 p.2).values ↔ x ∈ m.values ∨ x = p.2 := by
      intro x
      rw [hp, values_put hm]
      constructor
      · rintro (⟨h, _⟩ | h)
        · exact .inl h
        · exact .inr h
      · rintro (h | h)
        · by_cases hid : x.id = p.2.id
          · exact .inr (hx x (List.mem_append_left _ h) p.2 (by simp [OutMap.values]) hid)
          · exact .inl ⟨h, hid⟩
        · exact .inr h
    rw [List.foldl_cons, ih]
    · rw [hv]
      simp only [OutMap.values, List.map_cons, List.mem_cons]
      tauto
    · rw [hp]; exact Filed.put hm p.2
    · exact fun q hq => ho q (List.mem_cons_of_mem _ hq)
    · have : ∀ x, x ∈ (m.put p.1 p.2).values ++ OutMap.values o → x ∈ m.values ++ OutMap.values (p :: o) := by
        intro x hx
        rcases List.mem_append.1 hx with h | h
        · rcases (hv x).1 h with h | rfl
          · exact List.mem_append_left _ h
          · exact List.mem_append_right _ (by simp [OutMap.values])
        · refine List.mem_append_right _ ?_
          simp only [OutMap.values, List.map_cons, List.mem_cons]
          exact .inr h
      exact fun x hx' y hy' => hx x (this x hx') y (this y hy')

/-- The balance holds the unspent outputs of these histories. -/
structure HoldsAll (H : Bytes → Bytes) (hs : List History) (b : Balance) : Prop where
  fo : Filed b.outputs
  fu : Filed b.unconf
  outs : ∀ co, co ∈ b.outputs.values ↔ ∃ h ∈ hs, Unspent H h co true
  unconf : ∀ co, co ∈ b.unconf.values ↔ ∃ h ∈ hs, Unspent H h co false

theorem merge_fields {b o m : Balance} (h : b.merge o = .ok m) : m.outputs = b.outputs.update o.outputs ∧ m.unconf = b.unconf.update o.unconf := by
  unfold Balance.merge at h
  obtain ⟨b1, h1, h⟩ := bind_ok h
  cases h
  have : b1.outputs = b.outputs ∧ b1.unconf = b.unconf := by
    unfold Balance.mergeChain at h1
    split at h1
    · split at h1 <;> cases h1; exact ⟨rfl, rfl⟩
    · split at h1 <;> cases h1; exact ⟨rfl, rfl⟩
  simp [this.1, this.2]

theorem holdsAll_merge {C : Client} {P : History → Prop} (hc : CoherentAll C P) {hs : List History} (hP : ∀ h ∈ hs, P h) {h : History} (hh : P h)
    {b o m : Balance} (hb : HoldsAll C.H hs b) (fo : Filed o.outputs) (fu : Filed o.unconf) (ho : BalanceOf C.H (h.address.str C.H) h.txs o)
    (hm : b.merge o = .ok m) : HoldsAll C.H (hs ++ [h]) m := by
  obtain ⟨e1, e2⟩ := merge_fields hm
  have hall : ∀ c co, ((∃ h ∈ hs, Unspent C.H h co c) ∨ (CreatedIn C.H (h.address.str C.H) h.txs co c ∧ ¬ SpentInHistory h.txs co.id)) ↔
      ∃ g ∈ hs ++ [h], Unspent C.H g co c := by
    intro c co
    constructor
    · rintro (⟨g, hg, hu⟩ | hu)
      · exact ⟨g, List.mem_append_left _ hg, hu⟩
      · exact ⟨h, by simp, hu⟩
    · rintro ⟨g, hg, hu⟩
      rcases List.mem_append.1 hg with hg | hg
      · exact .inl ⟨g, hg, hu⟩
      · rw [List.mem_singleton.1 hg] at hu; exact .inr hu
  have uniq : ∀ c x y, (∃ g ∈ hs ++ [h], Unspent C.H g x c) → (∃ g ∈ hs ++ [h], Unspent C.H g y c) → x.id = y.id → x = y := by
    rintro c x y ⟨g, hg, hu⟩ ⟨g', hg', hu'⟩ hid
    have p : ∀ g ∈ hs ++ [h], P g := by
      intro g hg
      rcases List.mem_append.1 hg with hg | hg
      · exact hP g hg
      · rw [List.mem_singleton.1 hg]; exact hh
    exact (hc.ids g g' x c y c (p g hg) (p g' hg') hu.1 hu'.1 hid).1
  refine ⟨by rw [e1]; exact filed_update hb.fo fo, by rw [e2]; exact filed_update hb.fu fu, ?_, ?_⟩
  · intro co
    have hmem : ∀ x ∈ b.outputs.values ++ o.outputs.values, ∃ g ∈ hs ++ [h], Unspent C.H g x true := by
      intro x hx
      rw [← hall]
      rcases List.mem_append.1 hx with hx | hx
      · exact .inl ((hb.outs x).1 hx)
      · exact .inr ((ho.confirmed x).1 hx)
    rw [e1, values_update hb.fo fo (fun x hx y hy => uniq true x y (hmem x hx) (hmem y hy)), hb.outs, ho.confirmed, hall]
  · intro co
    have hmem : ∀ x ∈ b.unconf.values ++ o.unconf.values, ∃ g ∈ hs ++ [h], Unspent C.H g x false := by
      intro x hx
      rw [← hall]
      rcases List.mem_append.1 hx with hx | hx
      · exact .inl ((hb.unconf x).1 hx)
      · exact .inr ((ho.unconfirmed x).1 hx)
    rw [e2, values_update hb.fu fu (fun x hx y hy => uniq false x y (hmem x hx) (hmem y hy)), hb.unconf, ho.unconfirmed, hall]

theorem run_filed (H : Bytes → Bytes) (es : List BalEvent) : BalInv (balRun H es) := by
  unfold balRun
  have : ∀ (es : List BalEvent) b, BalInv b → BalInv (es.foldl (balStep H) b) := by
    intro es
    induction es with
    | nil => intro b h; exact h
    | cons e es ih => intro b h; exact ih _ (balStep_inv H h e)
  exact this es {} balInv_new

/-- The personal part: nothing but the personal balance changes. -/
theorem addPersonal_holds {C : Client} {P : History → Prop} (hc : CoherentAll C P) (info : ChainInfo) (own : List UnlockHash)
    (h1 : ∀ u ∈ own, u.type = 1) (hP : ∀ u ∈ own, ∀ h, C.unlockhashGet (.str (u.str C.H)) = .ok h → P h) :
    ∀ (w : Wallets) hs b ms, (∀ h ∈ hs, P h) → HoldsAll C.H hs w.base → C.addPersonal info (own.map fun u => u.str C.H) (.wallets w) = .ok (b, ms) →
      ∃ w' hs', b = .wallets w' ∧ w'.wallets = w.wallets ∧ HoldsAll C.H hs' w'.base ∧
        (∀ h, h ∈ hs' ↔ h ∈ hs ∨ OwnHistory C own h) ∧
        ∀ a, a ∈ ms ↔ ∃ h, OwnHistory C own h ∧ ∃ u ∈ h.multisigs, a = u.str C.H := by
  induction own with
  | nil =>
    intro w hs b ms _ hb h
    cases h
    exact ⟨w, hs, rfl, rfl, hb, by simp [OwnHistory], by simp [OwnHistory]⟩
  | cons u own ih =>
    intro w hs b ms hsP hb h
    rw [List.map_cons, Client.addPersonal] at h
    have i1 := ih (fun x hx => h1 x (List.mem_cons_of_mem _ hx)) (fun x hx => hP x (List.mem_cons_of_mem _ hx))
    have own_cons : ∀ h, OwnHistory C (u :: own) h ↔ C.unlockhashGet (.str (u.str C.H)) = .ok h ∨ OwnHistory C own h := by
      intro h; simp [OwnHistory]
    cases hu : C.unlockhashGet (.str (u.str C.H)) with
    | error e =>
      rw [hu] at h
      have hno : ∀ h, OwnHistory C (u :: own) h ↔ OwnHistory C own h := by
        intro h; rw [own_cons, hu]; simp
      by_cases he : e = .explorerNoContent
      · subst he
        obtain ⟨w', hs', e1, e2, e3, e4, e5⟩ := i1 w hs b ms hsP hb h
        exact ⟨w', hs', e1, e2, e3, by simpa [hno] using e4, by simpa [hno] using e5⟩
      · exfalso
        cases e <;> first | exact he rfl | cases h
    | ok g =>
      rw [hu] at h
      obtain ⟨gb, hg, h⟩ := bind_ok h
      obtain ⟨b1, hadd, h⟩ := bind_ok h
      obtain ⟨⟨b2, ms2⟩, hrest, h⟩ := bind_ok h
      cases h
      have gP : P g := hP u List.mem_cons_self g hu
      have gt : g.address.type ≠ 3 := by rw [history_type (.inl (h1 u List.mem_cons_self)) hu, h1 u List.mem_cons_self]; decide
      obtain ⟨gw, rfl, hgw, _⟩ := C63_personal_partial C _ g hu gt (hc.each g gP) info gb hg
      have gfiled : BalInv gw := by
        unfold History.balance at hg
        rw [if_neg gt] at hg
        obtain ⟨x, hx, hg⟩ := bind_ok hg
        cases hg
        rw [personal_run hx]
        have := run_filed C.H (g.txs.flatMap (txReports C.H (g.address.str C.H)))
        exact ⟨this.fo, this.fs, this.fu, this.fus, this.no, this.nu, this.out⟩
      obtain ⟨m, hmw, hadd⟩ := bind_ok hadd
      cases hadd
      obtain ⟨mb, hmb, hmw⟩ := bind_ok hmw
      cases hmw
      have hb' := holdsAll_merge hc hsP gP hb gfiled.fo gfiled.fu hgw hmb
      obtain ⟨w', hs', e1, e2, e3, e4, e5⟩ := i1 { w with base := mb } (hs ++ [g]) b ms2
        (by
          intro x hx
          rcases List.mem_append.1 hx with hx | hx
          · exact hsP x hx
          · rw [List.mem_singleton.1 hx]; exact gP) hb' hrest
      refine ⟨w', hs', e1, e2, e3, ?_, ?_⟩
      · intro x
        rw [e4, own_cons, hu, List.mem_append, List.mem_singleton, or_assoc]
        simp only [Except.ok.injEq]
        constructor
        · rintro (h | rfl | h)
          · exact .inl h
          · exact .inr (.inl rfl)
          · exact .inr (.inr h)
        · rintro (h | rfl | h)
          · exact .inl h
          · exact .inr (.inl rfl)
          · exact .inr (.inr h)
      · intro a
        rw [List.mem_append, e5]
        constructor
        · rintro (h | ⟨x, hx, hx'⟩)
          · obtain ⟨v, hv, rfl⟩ := List.mem_map.1 h
            exact ⟨g, (own_cons g).2 (.inl hu), v, hv, rfl⟩
          · exact ⟨x, (own_cons x).2 (.inr hx), hx'⟩
        · rintro ⟨x, hx, v, hv, rfl⟩
          rcases (own_cons x).1 hx with h | h
          · rw [hu] at h; cases h
            exact .inl (List.mem_map.2 ⟨v, hv, rfl⟩)
          · exact .inr ⟨x, h, v, hv, rfl⟩

/-- The multi-signature wallets hold the unspent outputs of these histories. -/
structure SharedHolds (H : Bytes → Bytes) (hs : List History) (m : MultiMap) : Prop where
  outs : ∀ co, (∃ p ∈ m, co ∈ p.2.base.outputs.values) ↔ ∃ h ∈ hs, Unspent H h co true
  unconf : ∀ co, (∃ p ∈ m, co ∈ p.2.base.unconf.values) ↔ ∃ h ∈ hs, Unspent H h co false

theorem put_new {m : MultiMap} {a : Str} {v : MultiBalance} (h : m.get? a = none) : m.put a v = m ++ [(a, v)] := by
  have := MultiMap.get_none h
  unfold MultiMap.put
  rw [if_neg]
  simp only [List.any_eq_true, decide_eq_true_eq, not_exists, not_and]
  intro p hp hpa
  exact this (List.mem_map.2 ⟨p, hp, hpa⟩)

theorem addMulti_holds {C : Client} (info : ChainInfo) (shared : List UnlockHash) (h3 : ∀ u ∈ shared, u.type = 3)
    (hP : ∀ u ∈ shared, ∀ h, C.unlockhashGet (.str (u.str C.H)) = .ok h →
      Coherent C.H (h.address.str C.H) h.txs ∧ ∀ t ∈ h.txs, ¬ IsMintDefinition t.tx) :
    ∀ (w : Wallets) hs b, SharedHolds C.H hs w.wallets → C.addMulti info (shared.map fun u => u.str C.H) (.wallets w) = .ok b →
      ∃ w' hs', b = .wallets w' ∧ w'.base.outputs = w.base.outputs ∧ w'.base.unconf = w.base.unconf ∧ SharedHolds C.H hs' w'.wallets ∧
        ∀ h, h ∈ hs' ↔ h ∈ hs ∨ OwnHistory C shared h := by
  induction shared with
  | nil =>
    intro w hs b hw h
    cases h
    exact ⟨w, hs, rfl, rfl, rfl, hw, by simp [OwnHistory]⟩
  | cons u shared ih =>
    intro w hs b hw h
    rw [List.map_cons, Client.addMulti] at h
    have i1 := ih (fun x hx => h3 x (List.mem_cons_of_mem _ hx)) (fun x hx => hP x (List.mem_cons_of_mem _ hx))
    have own_cons : ∀ h, OwnHistory C (u :: shared) h ↔ C.unlockhashGet (.str (u.str C.H)) = .ok h ∨ OwnHistory C shared h := by
      intro h; simp [OwnHistory]
    cases hu : C.unlockhashGet (.str (u.str C.H)) with
    | error e =>
      rw [hu] at h
      have hno : ∀ h, OwnHistory C (u :: shared) h ↔ OwnHistory C shared h := by
        intro h; rw [own_cons, hu]; simp
      by_cases he : e = .explorerNoContent
      · subst he
        obtain ⟨w', hs', e1, e2, e3, e4, e5⟩ := i1 w hs b hw h
        exact ⟨w', hs', e1, e2, e3, e4, by simpa [hno] using e5⟩
      · exfalso
        cases e <;> first | exact he rfl | cases h
    | ok g =>
      rw [hu] at h
      obtain ⟨gb, hg, h⟩ := bind_ok h
      obtain ⟨b1, hadd, h⟩ := bind_ok h
      obtain ⟨hcoh, hdef⟩ := hP u List.mem_cons_self g hu
      have gt : g.address.type = 3 := by rw [history_type (.inr (h3 u List.mem_cons_self)) hu, h3 u List.mem_cons_self]
      obtain ⟨gw, hgw, hgb, _⟩ := C63_multi_partial C _ g hu gt hcoh hdef info gb hg
      obtain ⟨w1, hmw, hadd⟩ := bind_ok hadd
      cases hadd
      have key : w1.base.outputs = w.base.outputs ∧ w1.base.unconf = w.base.unconf ∧ SharedHolds C.H (hs ++ [g]) w1.wallets := by
        cases gb with
        | wallets _ => cases hgw
        | wallet x =>
          cases hgw
          obtain ⟨mb, hmb, hmw⟩ := bind_ok hmw
          cases hmw
          have hx : gw.outputs = [] ∧ gw.unconf = [] := by
            unfold History.balance at hg
            rw [if_pos gt] at hg
            obtain ⟨m, _, hg⟩ := bind_ok hg
            cases m with
            | none => cases hg; exact ⟨rfl, rfl⟩
            | some m => cases hg
          obtain ⟨f1, f2⟩ := merge_fields hmb
          refine ⟨by rw [f1, hx.1]; rfl, by rw [f2, hx.2]; rfl, ?_, ?_⟩
          · intro co
            rw [hw.outs]
            constructor
            · rintro ⟨x, hx, hu⟩; exact ⟨x, List.mem_append_left _ hx, hu⟩
            · rintro ⟨x, hx', hu⟩
              rcases List.mem_append.1 hx' with h | h
              · exact ⟨x, h, hu⟩
              · rw [List.mem_singleton.1 h] at hu
                have := (hgb.confirmed co).2 hu
                rw [hx.1] at this; cases this
          · intro co
            rw [hw.unconf]
            constructor
            · rintro ⟨x, hx, hu⟩; exact ⟨x, List.mem_append_left _ hx, hu⟩
            · rintro ⟨x, hx', hu⟩
              rcases List.mem_append.1 hx' with h | h
              · exact ⟨x, h, hu⟩
              · rw [List.mem_singleton.1 h] at hu
                have := (hgb.unconfirmed co).2 hu
                rw [hx.2] at this; cases this
        | multi m =>
          cases hgw
          obtain ⟨a, ha, hmw⟩ := bind_ok hmw
          unfold Wallets.mergeMulti at hmw
          cases hget : w.wallets.get? a with
          | some x => rw [hget] at hmw; cases hmw
          | none =>
            rw [hget] at hmw
            cases hmw
            refine ⟨rfl, rfl, ?_, ?_⟩
            · intro co
              simp only [put_new hget]
              constructor
              · rintro ⟨p, hp, hco⟩
                rcases List.mem_append.1 hp with hp | hp
                · obtain ⟨x, hx, hu⟩ := (hw.outs co).1 ⟨p, hp, hco⟩
                  exact ⟨x, List.mem_append_left _ hx, hu⟩
                · rw [List.mem_singleton.1 hp] at hco
                  exact ⟨g, by simp, (hgb.confirmed co).1 hco⟩
              · rintro ⟨x, hx, hu⟩
                rcases List.mem_append.1 hx with hx | hx
                · obtain ⟨p, hp, hco⟩ := (hw.outs co).2 ⟨x, hx, hu⟩
                  exact ⟨p, List.mem_append_left _ hp, hco⟩
                · rw [List.mem_singleton.1 hx] at hu
                  exact ⟨(a, m), by simp, (hgb.confirmed co).2 hu⟩
            · intro co
              simp only [put_new hget]
              constructor
              · rintro ⟨p, hp, hco⟩
                rcases List.mem_append.1 hp with hp | hp
                · obtain ⟨x, hx, hu⟩ := (hw.unconf co).1 ⟨p, hp, hco⟩
                  exact ⟨x, List.mem_append_left _ hx, hu⟩
                · rw [List.mem_singleton.1 hp] at hco
                  exact ⟨g, by simp, (hgb.unconfirmed co).1 hco⟩
              · rintro ⟨x, hx, hu⟩
                rcases List.mem_append.1 hx with hx | hx
                · obtain ⟨p, hp, hco⟩ := (hw.unconf co).2 ⟨x, hx, hu⟩
                  exact ⟨p, List.mem_append_left _ hp, hco⟩
                · rw [List.mem_singleton.1 hx] at hu
                  exact ⟨(a, m), by simp, (hgb.unconfirmed co).2 hu⟩
      obtain ⟨w', hs', e1, e2, e3, e4, e5⟩ := i1 w1 (hs ++ [g]) b key.2.2 h
      refine ⟨w', hs', e1, e2.trans key.1, e3.trans key.2.1, e4, ?_⟩
      intro x
      rw [e5, own_cons, hu, List.mem_append, List.mem_singleton, or_assoc]
      simp only [Except.ok.injEq]
      constructor
      · rintro (h | rfl | h)
        · exact .inl h
        · exact .inr (.inl rfl)
        · exact .inr (.inr h)
      · rintro (h | rfl | h)
        · exact .inl h
        · exact .inr (.inl rfl)
        · exact .inr (.inr h)

/-- **C96** (partial: the histories have to be coherent, and without a mint condition definition at a shared address; see also
`C96_two_owners_false`): the balance of a wallet holds exactly the unspent outputs in the histories of its own addresses and of the
multi-signature addresses these histories mention, and knows the state of the chain. -/
theorem C96_balance_partial (C : Client) (own : List UnlockHash) (h1 : ∀ u ∈ own, u.type = 1) (info : ChainInfo) (b : AnyBalance)
    (hb : C.walletBalance (.ok info) (own.map fun u => u.str C.H) = .ok b) (hc : CoherentAll C (OwnHistory C own))
    (hs : ∀ h, SharedHistory C own h → Coherent C.H (h.address.str C.H) h.txs ∧ ∀ t ∈ h.txs, ¬ IsMintDefinition t.tx) :
    ∃ w, b = .wallets w ∧ KnowsChain w.base info ∧
      (∀ co, co ∈ w.base.outputs.values ↔ ∃ h, OwnHistory C own h ∧ Unspent C.H h co true) ∧
      (∀ co, co ∈ w.base.unconf.values ↔ ∃ h, OwnHistory C own h ∧ Unspent C.H h co false) ∧
      (∀ co, (∃ p ∈ w.wallets, co ∈ p.2.base.outputs.values) ↔ ∃ h, SharedHistory C own h ∧ Unspent C.H h co true) ∧
      (∀ co, (∃ p ∈ w.wallets, co ∈ p.2.base.unconf.values) ↔ ∃ h, SharedHistory C own h ∧ Unspent C.H h co false) := by
  unfold Client.walletBalance at hb
  obtain ⟨i, hi, hb⟩ := bind_ok hb
  cases hi
  obtain ⟨⟨b1, ms⟩, hp, hb⟩ := bind_ok hb
  obtain ⟨b2, hm, hb⟩ := bind_ok hb
  cases hb
  have hnew : HoldsAll C.H [] ({} : Wallets).base := by
    refine ⟨by simp [Filed], by simp [Filed], ?_, ?_⟩ <;> intro co <;> simp [OutMap.values]
  obtain ⟨w1, hs1, rfl, e2, e3, e4, e5⟩ := addPersonal_holds hc info own h1 (fun u hu h hh => ⟨u, hu, hh⟩) {} [] b1 ms (by simp) hnew hp
  -- the multi-signature addresses
  have hex : ∃ shared : List UnlockHash, ms = shared.map (fun u => u.str C.H) ∧ ∀ u ∈ shared, ∃ g, OwnHistory C own g ∧ u ∈ g.multisigs := by
    clear hm hp
    have : ∀ l : List Str, (∀ a ∈ l, a ∈ ms) → ∃ shared : List UnlockHash, l = shared.map (fun u => u.str C.H) ∧ ∀ u ∈ shared, ∃ g, OwnHistory C own g ∧ u ∈ g.multisigs := by
      intro l
      induction l with
      | nil => intro _; exact ⟨[], rfl, by simp⟩
      | cons a l ih =>
        intro h
        obtain ⟨sh, rfl, hsh⟩ := ih fun x hx => h x (List.mem_cons_of_mem _ hx)
        obtain ⟨g, hg, v, hv, rfl⟩ := (e5 a).1 (h a List.mem_cons_self)
        refine ⟨v :: sh, rfl, ?_⟩
        intro x hx
        rcases List.mem_cons.1 hx with rfl | hx
        · exact ⟨g, hg, hv⟩
        · exact hsh x hx
    exact this ms fun _ h => h
  obtain ⟨shared, rfl, hsh⟩ := hex
  have hown : ∀ h, OwnHistory C shared h ↔ SharedHistory C own h := by
    intro h
    constructor
    · rintro ⟨u, hu, hh⟩
      obtain ⟨g, hg, hug⟩ := hsh u hu
      exact ⟨g, hg, u, hug, hh⟩
    · rintro ⟨g, hg, u, hu, hh⟩
      obtain ⟨v, hv, hvu⟩ := List.mem_map.1 ((e5 (u.str C.H)).2 ⟨g, hg, u, hu, rfl⟩)
      exact ⟨v, hv, by rw [hvu]; exact hh⟩
  have h3 : ∀ u ∈ shared, u.type = 3 := by
    intro u hu
    obtain ⟨g, ⟨v, _, hg⟩, hug⟩ := hsh u hu
    obtain ⟨_, _, _, _, _, _, h4⟩ := unlockhashGet_ok hg
    obtain ⟨_, _, _, _, _, _, h9, _⟩ := readHistory_ok h4
    exact h9 u hug
  have hnm : SharedHolds C.H [] w1.wallets := by
    rw [e2]; exact ⟨by simp, by simp⟩
  obtain ⟨w2, hs2, rfl, f2, f3, f4, f5⟩ := addMulti_holds info shared h3
    (fun u hu h hh => hs h ((hown h).1 ⟨u, hu, hh⟩)) w1 [] b2 hnm hm
  refine ⟨_, rfl, ⟨rfl, rfl, rfl⟩, ?_, ?_, ?_, ?_⟩
  · intro co
    show co ∈ w2.base.outputs.values ↔ _
    rw [f2, e3.outs]
    simp [e4]
  · intro co
    show co ∈ w2.base.unconf.values ↔ _
    rw [f3, e3.unconf]
    simp [e4]
  · intro co
    show (∃ p ∈ w2.wallets, _) ↔ _
    rw [f4.outs]
    simp [f5, hown]
  · intro co
    show (∃ p ∈ w2.wallets, _) ↔ _
    rw [f4.unconf]
    simp [f5, hown]

/-! ### Examples -/

/-- An explorer that knows a history for each of some addresses. -/
def explorerOf (l : List (UnlockHash × List Json × List UnlockHash)) : Client :=
  ⟨noIp, toyHash, fun ep => match l.find? fun p => ep = "/explorer/hashes/".toList ++ p.1.str toyHash with
    | some (_, entries, ms) => .ok (.obj [("hashtype", .str "unlockhash".toList), ("transactions", .arr entries),
        ("multisigaddresses", .arr (ms.map fun u => .str (u.str toyHash)))])
    | none => .error .explorerNoContent⟩

/-- The first key's address owns coins and shares a multi-signature address; the second one is unused. -/
def oneOwner : Client := explorerOf [(addrOf key1, [entryCreates 5, entryCreatesM 5], [msAddr]), (msAddr, [entryCreatesM 5], [])]
/-- Both share it. -/
def twoOwners : Client :=
  explorerOf [(addrOf key1, [entryCreates 5, entryCreatesM 5], [msAddr]), (addrOf key2, [entryCreatesM 5], [msAddr]), (msAddr, [entryCreatesM 5], [])]

/-- What a wallet's balance shows: personal outputs and those of the multi-signature wallets. -/
def walletShown (r : Res AnyBalance) : Res (Option (List Hash × List (Str × List Hash))) :=
  r.map fun b => match b with
    | .wallets w => some (w.base.outputs.values.map CoinOutput.id, w.wallets.map fun p => (p.1, p.2.base.outputs.values.map CoinOutput.id))
    | _ => none

example : walletShown (oneOwner.walletBalance (.ok infoDemo) ([addrOf key1, addrOf key2].map fun u => u.str toyHash)) =
    .ok (some ([coinA.id], [(msAddr.str toyHash, [coinM.id])])) := by decide +kernel
/-- The histories are coherent. -/
example : ([addrOf key1, msAddr].map fun u => (oneOwner.unlockhashGet (.str (u.str toyHash))).map fun h =>
    (coherentCheck toyHash (h.address.str toyHash) h.txs, createdList toyHash (h.address.str toyHash) h.txs)) =
    [.ok (true, [(coinA9, true)]), .ok (true, [({ coinM with value := ⟨some ⟨false, 3000000000, -9⟩⟩ }, true)])] := by decide +kernel

/-- **C96** is false for a wallet two of whose addresses own a multi-signature address together: its balance cannot be computed at all, and
nothing can be paid. -/
theorem C96_two_owners_false :
    twoOwners.walletBalance (.ok infoDemo) ([addrOf key1, addrOf key2].map fun u => u.str toyHash) = .error .attributeError := by decide +kernel

/-! ## C97: block rewards -/

theorem jget_other (fields : List (String × Json)) (blocks : Json) (k : String) (hk : k ≠ "blocks") :
    jget (fields ++ [("blocks", blocks)]) k = jget fields k := by
  unfold jget
  rw [List.find?_append]
  cases List.find? (fun p => p.1 == k) fields with
  | some x => rfl
  | none =>
    have : (("blocks" : String) == k) = false := by simpa using fun h => hk h.symm
    simp [List.find?_cons, this]

/-- **C97** (finding): the blocks in an answer, which contain the rewards paid to the address, make no difference to the history, and so to
any balance. -/
theorem C97_rewards_false (L : IpLib) (H : Bytes → Bytes) (a : Str) (fields : List (String × Json)) (blocks : Json) :
    readHistory L H a (.obj (fields ++ [("blocks", blocks)])) = readHistory L H a (.obj fields) := by
  have h1 := jget_other fields blocks "hashtype" (by decide)
  have h2 := jget_other fields blocks "transactions" (by decide)
  have h3 := jget_other fields blocks "multisigaddresses" (by decide)
  have h4 := jget_other fields blocks "erc20info" (by decide)
  simp only [readHistory, optField, Json.idx, Json.listField, Json.get?, Json.has, h1, h2, h3, h4]

/-- A block that pays 10 TFT to the first key's address. -/
def rewardBlock : Json :=
  .obj [("blockid", .str (Hash.str ⟨List.replicate 32 21⟩)), ("height", .int 7), ("transactions", .arr []),
    ("minerpayoutids", .arr [.str (Hash.str ⟨List.replicate 32 22⟩)]),
    ("rawblock", .obj [("parentid", .str (Hash.str ⟨List.replicate 32 20⟩)), ("timestamp", .int 1500000000),
      ("minerpayouts", .arr [.obj [("value", .str "10000000000".toList), ("unlockhash", .str ((addrOf key1).str toyHash))]])])]

example : (readBlock noIp toyHash rewardBlock).map Block.payouts = .ok [⟨⟨List.replicate 32 22⟩, ⟨some ⟨false, 10000000000, -9⟩⟩, addrOf key1⟩] ∧
    balanceShown toyHash ((knows [] [("blocks", .arr [rewardBlock])]).unlockhashGet (.str ((addrOf key1).str toyHash))) = .ok (some ([], [])) := by
  decide +kernel

/-! ## C98: the transactions of a wallet -/

theorem txSet_spec {hashStr : Str → Int} (l : List ChainTx)
    (hinj : ∀ x ∈ l, ∀ y ∈ l, hashStr x.id.str = hashStr y.id.str → x.id.str = y.id.str) :
    ∀ s : List ChainTx, (∀ x ∈ s, x ∈ l) → ∀ l' : List ChainTx, (∀ x ∈ l', x ∈ l) → (s.map fun t => t.id.str).Nodup →
      let r := l'.foldl (txSetAdd hashStr) s
      (∀ x ∈ r, x ∈ l) ∧ (r.map fun t => t.id.str).Nodup ∧ (∀ x ∈ s, x ∈ r) ∧ (∀ x ∈ r, x ∈ s ∨ x ∈ l') ∧ ∀ x ∈ l', ∃ y ∈ r, y.id.str = x.id.str := by
  intro s hs l'
  induction l' generalizing s with
  | nil => intro _ hn; exact ⟨hs, hn, fun x h => h, fun x h => .inl h, by simp⟩
  | cons t l' ih =>
    intro hl hn
    have ht : t ∈ l := hl t List.mem_cons_self
    by_cases hany : (s.any fun x => hashStr x.id.str = hashStr t.id.str) = true
    · have e : txSetAdd hashStr s t = s := by unfold txSetAdd; rw [if_pos hany]
      obtain ⟨h1, h2, h3, h4, h5⟩ := ih s hs (fun x hx => hl x (List.mem_cons_of_mem _ hx)) hn
      simp only [List.foldl_cons, e]
      refine ⟨h1, h2, h3, ?_, ?_⟩
      · intro x hx
        rcases h4 x hx with h | h
        · exact .inl h
        · exact .inr (List.mem_cons_of_mem _ h)
      · intro x hx
        rcases List.mem_cons.1 hx with rfl | hx
        · obtain ⟨y, hy, he⟩ := List.any_eq_true.1 hany
          exact ⟨y, h3 y hy, hinj y (hs y hy) x ht (by simpa using he)⟩
        · exact h5 x hx
    · have e : txSetAdd hashStr s t = s ++ [t] := by unfold txSetAdd; rw [if_neg hany]
      have hn' : ((s ++ [t]).map fun t => t.id.str).Nodup := by
        rw [List.map_append, List.nodup_append]
        refine ⟨hn, by simp, ?_⟩
        intro a ha b hb hab
        simp only [List.map_cons, List.map_nil, List.mem_singleton] at hb
        subst hb; subst hab
        obtain ⟨y, hy, he⟩ := List.mem_map.1 ha
        apply hany
        rw [List.any_eq_true]
        exact ⟨y, hy, by rw [decide_eq_true_eq, he]⟩
      obtain ⟨h1, h2, h3, h4, h5⟩ := ih (s ++ [t]) (by
        intro x hx
        rcases List.mem_append.1 hx with h | h
        · exact hs x h
        · rw [List.mem_singleton.1 h]; exact ht) (fun x hx => hl x (List.mem_cons_of_mem _ hx)) hn'
      simp only [List.foldl_cons, e]
      refine ⟨h1, h2, fun x hx => h3 x (List.mem_append_left _ hx), ?_, ?_⟩
      · intro x hx
        rcases h4 x hx with h | h
        · rcases List.mem_append.1 h with h | h
          · exact .inl h
          · rw [List.mem_singleton.1 h]; exact .inr List.mem_cons_self
        · exact .inr (List.mem_cons_of_mem _ h)
      · intro x hx
        rcases List.mem_cons.1 hx with rfl | hx
        · exact ⟨x, h3 x (by simp), rfl⟩
        · exact h5 x hx

theorem walletTransactions_ok {C : Client} {hashStr : Str → Int} {order : List ChainTx → List ChainTx} {own : List UnlockHash} {l : List ChainTx}
    (h : C.walletTransactions hashStr order (own.map fun u => u.str C.H) = .ok l) :
    ∃ hs : List History, l = sortTxs (order ((hs.flatMap History.txs).foldl (txSetAdd hashStr) [])) ∧
      (∀ u ∈ own, ∃ h ∈ hs, C.unlockhashGet (.str (u.str C.H)) = .ok h) ∧ ∀ h ∈ hs, OwnHistory C own h := by
  unfold Client.walletTransactions at h
  obtain ⟨hs, h1, h⟩ := bind_ok h
  cases h
  refine ⟨hs, rfl, ?_, ?_⟩
  · intro u hu
    obtain ⟨k, hk⟩ := List.getElem?_of_mem hu
    have hlen := (mapM_get'' h1).1
    rw [List.length_map] at hlen
    have hlt : k < hs.length := by
      rw [hlen]; exact (List.getElem?_eq_some_iff.1 hk).1
    obtain ⟨a, ha, hg⟩ := (mapM_get'' h1).2 k hs[k] (by simp [hlt])
    rw [List.getElem?_map, hk] at ha
    cases ha
    exact ⟨hs[k], List.getElem_mem _, hg⟩
  · intro h hh
    obtain ⟨k, hk⟩ := List.getElem?_of_mem hh
    obtain ⟨a, ha, hg⟩ := (mapM_get'' h1).2 k h hk
    obtain ⟨u, hu, rfl⟩ := List.mem_map.1 (List.mem_of_getElem? ha)
    exact ⟨u, hu, hg⟩

/-- **C98** (partial: only when it returns, see `C98_unused_false`; Python's hashes of the ids that occur are assumed to differ): `wallet.transactions`
returns the transactions in the histories of the wallet's addresses, each id once, unconfirmed ones first, then by decreasing height. -/
theorem C98_transactions_partial (C : Client) (hashStr : Str → Int) (order : List ChainTx → List ChainTx) (horder : ∀ l, (order l).Perm l)
    (own : List UnlockHash) (l : List ChainTx) (h : C.walletTransactions hashStr order (own.map fun u => u.str C.H) = .ok l)
    (hinj : ∀ g g', OwnHistory C own g → OwnHistory C own g' → ∀ t ∈ g.txs, ∀ t' ∈ g'.txs, hashStr t.id.str = hashStr t'.id.str → t.id.str = t'.id.str)
    (hz : ∀ g, OwnHistory C own g → ∀ t ∈ g.txs, t.height < 2 ^ 63 - 1 ∧ t.id.str ≠ List.replicate 64 '0') :
    (∀ t ∈ l, ∃ g, OwnHistory C own g ∧ t ∈ g.txs) ∧ (∀ g, OwnHistory C own g → ∀ t ∈ g.txs, ∃ t' ∈ l, t'.id = t.id) ∧
      (l.map ChainTx.id).Nodup ∧ NewestFirst l := by
  obtain ⟨hs, rfl, hall, hown⟩ := walletTransactions_ok h
  obtain ⟨h1, h2, _, h4, h5⟩ := txSet_spec (hashStr := hashStr) (hs.flatMap History.txs) (by
      intro x hx y hy
      obtain ⟨g, hg, hxg⟩ := List.mem_flatMap.1 hx
      obtain ⟨g', hg', hyg⟩ := List.mem_flatMap.1 hy
      exact hinj g g' (hown g hg) (hown g' hg') x hxg y hyg) [] (by simp)
    (hs.flatMap History.txs) (fun x hx => hx) (by simp)
  have hperm := (sortTxs_perm (order ((hs.flatMap History.txs).foldl (txSetAdd hashStr) []))).trans (horder _)
  have hmem : ∀ t ∈ sortTxs (order ((hs.flatMap History.txs).foldl (txSetAdd hashStr) [])), ∃ g, OwnHistory C own g ∧ t ∈ g.txs := by
    intro t ht
    obtain ⟨g, hg, htg⟩ := List.mem_flatMap.1 (h1 t (hperm.mem_iff.1 ht))
    exact ⟨g, hown g hg, htg⟩
  refine ⟨hmem, ?_, ?_, ?_⟩
  · rintro g ⟨u, hu, hg⟩ t ht
    obtain ⟨g', hg', hgu⟩ := hall u hu
    rw [hg] at hgu; cases hgu
    obtain ⟨y, hy, he⟩ := h5 t (List.mem_flatMap.2 ⟨g, hg', ht⟩)
    exact ⟨y, hperm.mem_iff.2 hy, (hash_str_inj he.symm (hz g ⟨u, hu, hg⟩ t ht).2).symm⟩
  · have hn : ((sortTxs (order ((hs.flatMap History.txs).foldl (txSetAdd hashStr) []))).map fun t => t.id.str).Nodup :=
      ((hperm.map _).nodup_iff).2 h2
    have : (sortTxs (order ((hs.flatMap History.txs).foldl (txSetAdd hashStr) []))).map (fun t => t.id.str) =
        ((sortTxs (order ((hs.flatMap History.txs).foldl (txSetAdd hashStr) []))).map ChainTx.id).map Hash.str := by rw [List.map_map]; rfl
    rw [this] at hn
    exact (List.pairwise_map.1 hn).imp fun h e => h (congrArg Hash.str e)
  · unfold NewestFirst
    have hsort : (sortTxs (order ((hs.flatMap History.txs).foldl (txSetAdd hashStr) []))).Pairwise fun a b => decide (b.key ≤ a.key) = true := by
      refine stableSort_sorted (le := fun a b : ChainTx => decide (b.key ≤ a.key)) ?_ ?_ _
      · intro a b c h1 h2
        simp only [decide_eq_true_eq] at h1 h2 ⊢; omega
      · intro a b
        simp only [Bool.or_eq_true, decide_eq_true_eq]; omega
    refine hsort.imp_of_mem ?_
    intro a b ha hb hab
    obtain ⟨g, ⟨u, _, hg⟩, hag⟩ := hmem a ha
    obtain ⟨g', ⟨u', _, hg'⟩, hbg⟩ := hmem b hb
    obtain ⟨_, _, _, _, _, _, r⟩ := unlockhashGet_ok hg
    obtain ⟨_, _, _, _, _, _, r'⟩ := unlockhashGet_ok hg'
    obtain ⟨_, pa⟩ := history_parsed r a hag
    obtain ⟨_, pb⟩ := history_parsed r' b hbg
    exact newest_of_key (C94_confirmed pa) (C94_confirmed pb) (hz g ⟨u, by assumption, hg⟩ a hag).1 (of_decide_eq_true hab)

/-- **C98** is false for a wallet with an unused address (such as a new wallet): `wallet.transactions` raises, whatever the other addresses
have. -/
theorem C98_unused_false (C : Client) (hashStr : Str → Int) (order : List ChainTx → List ChainTx) (own : List UnlockHash) (u : UnlockHash)
    (hu : u ∈ own) (h : C.unlockhashGet (.str (u.str C.H)) = .error .explorerNoContent) (l : List ChainTx) :
    C.walletTransactions hashStr order (own.map fun u => u.str C.H) ≠ .ok l := by
  intro hl
  obtain ⟨_, _, hall, _⟩ := walletTransactions_ok hl
  obtain ⟨g, _, hg⟩ := hall u hu
  rw [h] at hg; cases hg

example : (oneOwner.walletTransactions (fun s => s.foldl (fun n c => 31 * n + c.toNat) 0) id ([addrOf key1].map fun u => u.str toyHash)).map
      (fun l => l.map ChainTx.id) = .ok [⟨List.replicate 32 11⟩, ⟨List.replicate 32 15⟩] ∧
    oneOwner.walletTransactions (fun s => s.foldl (fun n c => 31 * n + c.toNat) 0) id ([addrOf key1, addrOf key2].map fun u => u.str toyHash) =
      .error .explorerNoContent := by decide +kernel

end TF.Props
