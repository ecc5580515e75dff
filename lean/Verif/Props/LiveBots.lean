import Verif.Spec.LiveBots
import Verif.Props.Live
import Verif.Props.Submit
/-! # C109, C110: affordable 3Bot operations, registrations and minting go through -/
namespace TF.Props
open TF Spec

theorem signAll_append (W : World) : ∀ (a b : List TxRequest) {t t1 : Tx} {n : Nat}, W.signAll a t = .ok (t1, n) → ∀ {t2 : Tx} {m : Nat}, W.signAll b t1 = .ok (t2, m) →
    ∃ k, W.signAll (a ++ b) t = .ok (t2, k) := by
  intro a
  induction a with
  | nil => intro b t t1 n h t2 m h2; cases h; exact ⟨m, h2⟩
  | cons r a ih =>
    intro b t t1 n h t2 m h2
    rw [World.signAll] at h
    obtain ⟨⟨tx, c⟩, h3, h⟩ := bind_ok h
    obtain ⟨⟨ty, k⟩, h4, h⟩ := bind_ok h
    cases h
    obtain ⟨k', h5⟩ := ih b h4 h2
    exact ⟨if c then k' + 1 else k', by
      rw [List.cons_append, World.signAll]
      simp only [h3, bind, Except.bind, h5, pure, Except.pure]⟩

theorem unlockhash_full {H : Bytes → Bytes} (hH : Digest32 H) {k : PublicKey} {u : UnlockHash} (h : k.unlockhash H = .ok u) : u.type = 1 ∧ FullAddress u := by
  refine ⟨unlockhash_type h, ?_⟩
  unfold PublicKey.unlockhash at h
  obtain ⟨a, _, h⟩ := bind_ok h
  obtain ⟨b, hb, h⟩ := bind_ok h
  cases h
  exact hH _

theorem signAll_one {W : World} {r : TxRequest} {t t' : Tx} {b : Bool} (h : W.signOne t r = .ok (t', b)) : ∃ n, W.signAll [r] t = .ok (t', n) := by
  simp only [World.signAll, h, bind, Except.bind, pure, Except.pure]; exact ⟨_, rfl⟩
theorem signAll_two {W : World} {r r' : TxRequest} {t t' t'' : Tx} {b b' : Bool} (h : W.signOne t r = .ok (t', b)) (h' : W.signOne t' r' = .ok (t'', b')) :
    ∃ n, W.signAll [r, r'] t = .ok (t'', n) := by
  simp only [World.signAll, h, h', bind, Except.bind, pure, Except.pure]; exact ⟨_, rfl⟩

/-- One request of the transaction itself. -/
theorem selfOne {L : IpLib} (hL : LawfulIp L) {W : World} (hH : Digest32 W.H) (hk : GoodKeys W) {t : Tx} (hfit : TxFits L t) {s : Bytes} {k : PublicKey} {u : UnlockHash}
    (hu : k.unlockhash W.H = .ok u) {t1 : Signature → Tx}
    (hs : ∀ (k' : PublicKey) (sg : Bytes), k'.unlockhash W.H = .ok u → sg.length = 64 → t.sign W.H (.self s) (.key k') (.bytes sg) = (t1 ⟨sg, true⟩, none)) :
    (W.keys.lookup (u.str W.H) = none ∧ W.signOne t ⟨.self s, { owner := u }⟩ = .ok (t, false)) ∨
      (W.keys.lookup (u.str W.H) ≠ none ∧ ∃ sg : Bytes, sg.length = 64 ∧ W.signOne t ⟨.self s, { owner := u }⟩ = .ok (t1 ⟨sg, true⟩, true)) := by
  obtain ⟨u1, u2⟩ := unlockhash_full hH hu
  have e : W.keys.get? (u.str W.H) = W.keys.lookup (u.str W.H) := if_neg (personal_text u1)
  unfold World.signOne
  simp only [e]
  cases hg : W.keys.lookup (u.str W.H) with
  | none => exact .inl ⟨rfl, rfl⟩
  | some pk =>
    refine .inr ⟨by simp, ?_⟩
    obtain ⟨u', hu', hua⟩ := hk.filed _ _ hg
    have : u' = u := str_inj (unlockhash_full hH hu').2 u2 hua
    subst this
    obtain ⟨b, hb⟩ := C99_signable L hL W.H t hfit (.self s) trivial pk (Nat.le_of_eq (hk.full _ _ hg))
    have hin : W.inputHash t (.self s) pk = .ok ⟨W.H b⟩ := by
      unfold World.inputHash
      rw [hb]; exact hashNew32 (hH b)
    refine ⟨W.sign pk (W.H b), hk.sig _ _, ?_⟩
    simp only [hin]
    unfold Request.fulfillCb
    simp only [hu', Bool.false_eq_true, if_false, ne_eq, not_true_eq_false, and_false]
    rw [hs pk _ hu' (hk.sig _ _)]

theorem selfSign_ok {H : Bytes → Bytes} {k k' : PublicKey} {u : UnlockHash} (h : k.unlockhash H = .ok u) (h' : k'.unlockhash H = .ok u) {sg : Bytes} (hs : sg.length = 64) :
    setTxSignature (.bytes sg) = .ok (some ⟨sg, true⟩) ∧ selfSign H (some k) (.key k') (.bytes sg) = .ok (some ⟨sg, true⟩) := by
  have e : setTxSignature (.bytes sg) = .ok (some ⟨sg, true⟩) := by
    unfold setTxSignature Signature.new BinData.new BinData.set
    simp only [BVal.norm, bind, Except.bind, throw, throwThe, MonadExceptOf.throw, pure, Except.pure]
    rw [if_neg (by omega), if_pos (by omega), if_neg (by omega)]
  exact ⟨e, by simp only [selfSign, h, h', bind, Except.bind, ne_eq, not_true_eq_false, if_false, e]⟩

theorem itself_one {W : World} {t : Tx} {s : Bytes} {k : PublicKey} {sg : Option Signature} {u : UnlockHash} (h : selfSignatures t = [(s, some k, sg)])
    (hu : k.unlockhash W.H = .ok u) : SignsItself W t ↔ W.keys.lookup (u.str W.H) ≠ none := by
  unfold SignsItself
  rw [h]
  simp only [List.mem_singleton, forall_eq, Option.some.injEq, forall_eq']
  constructor
  · rintro ⟨a, ⟨u', hu', rfl⟩, h⟩
    rw [hu] at hu'; cases hu'; exact h
  · exact fun h => ⟨_, ⟨u, hu, rfl⟩, h⟩

/-- The requests of the transaction itself are made and answered. -/
theorem selfs_ok {L : IpLib} (hL : LawfulIp L) {W : World} (hH : Digest32 W.H) (hk : GoodKeys W) {t : Tx} (hp : Plain t) (hfit : TxFits L t)
    (hself : ∀ p ∈ selfSignatures t, p.2.2 = none ∧ ∃ k u, p.2.1 = some k ∧ k.unlockhash W.H = .ok u)
    (hd : ∀ v, t = .v146 v → ∀ a b, v.senderKey = some a → v.receiverKey = some b → a.unlockhash W.H ≠ b.unlockhash W.H) :
    ∃ ex n t' b, t.extraRequests W.H = .ok ex ∧ W.signAll ex t = .ok (t', n) ∧ t'.coinInputs = t.coinInputs ∧ t'.extraFulfilled = .ok b ∧
      (b = true ↔ SignsItself W t) ∧ (SignsItself W t' ↔ SignsItself W t) := by
  cases t with
  | v128 v => exact hp.elim
  | v129 v => exact hp.elim
  | v209 v => exact hp.elim
  | v1 v => exact ⟨[], 0, _, true, rfl, rfl, rfl, rfl, by simp [SignsItself, selfSignatures], Iff.rfl⟩
  | v208 v => exact ⟨[], 0, _, true, rfl, rfl, rfl, rfl, by simp [SignsItself, selfSignatures], Iff.rfl⟩
  | v144 v =>
    obtain ⟨h1, k, u, h2, hu⟩ := hself (specSender, v.key, v.sig) (by simp [selfSignatures])
    simp only at h1 h2
    have hreq : (Tx.v144 v).extraRequests W.H = .ok [⟨.self specSender, { owner := u }⟩] := by
      show selfRequest W.H v.key v.sig specSender = _
      rw [h1, h2]; exact selfRequest_has hu
    have hi := itself_one (t := .v144 v) (s := specSender) (sg := v.sig) (by simp [selfSignatures, h2]) hu
    rcases selfOne hL hH hk hfit (s := specSender) (t1 := fun s => .v144 { v with sig := some s }) hu (fun k' sg hk' hsg => by
      show (match selfSign W.H v.key (.key k') (.bytes sg) with | .ok s => _ | .error e => _) = _
      rw [h2, (selfSign_ok hu hk' hsg).2]) with ⟨g1, g2⟩ | ⟨g1, sg, g2, g3⟩
    · obtain ⟨n, hn⟩ := signAll_one g2
      refine ⟨_, n, _, false, hreq, hn, rfl, by simp [Tx.extraFulfilled, h1], ?_, Iff.rfl⟩
      rw [hi]; simp [g1]
    · obtain ⟨n, hn⟩ := signAll_one g3
      refine ⟨_, n, _, true, hreq, hn, rfl, by simp [Tx.extraFulfilled], ?_, ?_⟩
      · rw [hi]; simp [g1]
      · rw [hi, itself_one (t := .v144 { v with sig := some ⟨sg, true⟩ }) (s := specSender) (sg := some ⟨sg, true⟩) (by simp [selfSignatures, h2]) hu]
  | v145 v =>
    obtain ⟨h1, k, u, h2, hu⟩ := hself (specSender, v.parentKey, v.sig) (by simp [selfSignatures])
    simp only at h1 h2
    have hreq : (Tx.v145 v).extraRequests W.H = .ok [⟨.self specSender, { owner := u }⟩] := by
      show selfRequest W.H v.parentKey v.sig specSender = _
      rw [h1, h2]; exact selfRequest_has hu
    have hi := itself_one (t := .v145 v) (s := specSender) (sg := v.sig) (by simp [selfSignatures, h2]) hu
    rcases selfOne hL hH hk hfit (s := specSender) (t1 := fun s => .v145 { v with sig := some s }) hu (fun k' sg hk' hsg => by
      show (match selfSign W.H v.parentKey (.key k') (.bytes sg) with | .ok s => _ | .error e => _) = _
      rw [h2, (selfSign_ok hu hk' hsg).2]) with ⟨g1, g2⟩ | ⟨g1, sg, g2, g3⟩
    · obtain ⟨n, hn⟩ := signAll_one g2
      refine ⟨_, n, _, false, hreq, hn, rfl, by simp [Tx.extraFulfilled, h1], ?_, Iff.rfl⟩
      rw [hi]; simp [g1]
    · obtain ⟨n, hn⟩ := signAll_one g3
      refine ⟨_, n, _, true, hreq, hn, rfl, by simp [Tx.extraFulfilled], ?_, ?_⟩
      · rw [hi]; simp [g1]
      · rw [hi, itself_one (t := .v145 { v with sig := some ⟨sg, true⟩ }) (s := specSender) (sg := some ⟨sg, true⟩) (by simp [selfSignatures, h2]) hu]
  | v210 v =>
    obtain ⟨h1, k, u, h2, hu⟩ := hself (specRegistration, v.key, v.sig) (by simp [selfSignatures])
    simp only at h1 h2
    have hreq : (Tx.v210 v).extraRequests W.H = .ok [⟨.self specRegistration, { owner := u }⟩] := by
      show selfRequest W.H v.key v.sig specRegistration = _
      rw [h1, h2]; exact selfRequest_has hu
    have hi := itself_one (t := .v210 v) (s := specRegistration) (sg := v.sig) (by simp [selfSignatures, h2]) hu
    rcases selfOne hL hH hk hfit (s := specRegistration) (t1 := fun s => .v210 { v with sig := some s }) hu (fun k' sg hk' hsg => by
      show (match selfSign W.H v.key (.key k') (.bytes sg) with | .ok s => _ | .error e => _) = _
      rw [h2, (selfSign_ok hu hk' hsg).2]) with ⟨g1, g2⟩ | ⟨g1, sg, g2, g3⟩
    · obtain ⟨n, hn⟩ := signAll_one g2
      refine ⟨_, n, _, false, hreq, hn, rfl, by simp [Tx.extraFulfilled, h1], ?_, Iff.rfl⟩
      rw [hi]; simp [g1]
    · obtain ⟨n, hn⟩ := signAll_one g3
      refine ⟨_, n, _, true, hreq, hn, rfl, by simp [Tx.extraFulfilled], ?_, ?_⟩
      · rw [hi]; simp [g1]
      · rw [hi, itself_one (t := .v210 { v with sig := some ⟨sg, true⟩ }) (s := specRegistration) (sg := some ⟨sg, true⟩) (by simp [selfSignatures, h2]) hu]
  | v146 v =>
    obtain ⟨a1, ka, ua, a2, hua⟩ := hself (specSender, v.senderKey, v.senderSig) (by simp [selfSignatures])
    obtain ⟨b1, kb, ub, b2, hub⟩ := hself (specReceiver, v.receiverKey, v.receiverSig) (by simp [selfSignatures])
    simp only at a1 a2 b1 b2
    have hne : ub ≠ ua := fun e => hd v rfl ka kb a2 b2 (by rw [hua, hub, e])
    have hreq : (Tx.v146 v).extraRequests W.H = .ok [⟨.self specSender, { owner := ua }⟩, ⟨.self specReceiver, { owner := ub }⟩] := by
      show (do let a ← selfRequest W.H v.senderKey v.senderSig specSender; let b ← selfRequest W.H v.receiverKey v.receiverSig specReceiver; return a ++ b) = _
      rw [a1, a2, b1, b2, selfRequest_has hua, selfRequest_has hub]; rfl
    have hi : ∀ x y, SignsItself W (.v146 { v with senderSig := x, receiverSig := y }) ↔ (W.keys.lookup (ua.str W.H) ≠ none ∧ W.keys.lookup (ub.str W.H) ≠ none) := by
      intro x y
      unfold SignsItself
      simp only [selfSignatures, List.mem_cons, List.not_mem_nil, or_false, forall_eq_or_imp, forall_eq, a2, b2, Option.some.injEq, forall_eq']
      constructor
      · rintro ⟨⟨_, ⟨u, hu, rfl⟩, h1⟩, _, ⟨u', hu', rfl⟩, h2⟩
        rw [hua] at hu; cases hu; rw [hub] at hu'; cases hu'
        exact ⟨h1, h2⟩
      · rintro ⟨h1, h2⟩
        exact ⟨⟨_, ⟨_, hua, rfl⟩, h1⟩, _, ⟨_, hub, rfl⟩, h2⟩
    have hi0 : SignsItself W (.v146 v) ↔ (W.keys.lookup (ua.str W.H) ≠ none ∧ W.keys.lookup (ub.str W.H) ≠ none) := hi v.senderSig v.receiverSig
    have signA : ∀ (v' : TxV146), v'.senderKey = some ka → ∀ (k' : PublicKey) (sg : Bytes), k'.unlockhash W.H = .ok ua → sg.length = 64 →
        (Tx.v146 v').sign W.H (.self specSender) (.key k') (.bytes sg) = (.v146 { v' with senderSig := some ⟨sg, true⟩ }, none) := by
      intro v' hv' k' sg hk' hsg
      simp only [Tx.sign, TxV146.signSelf, TxV146.signSelfRes, hk', hv', keyOr, Option.getD_some, hua, bind, Except.bind, if_true, (selfSign_ok hua hk' hsg).1, pure, Except.pure]
    have signB : ∀ (v' : TxV146), v'.senderKey = some ka → v'.receiverKey = some kb → ∀ (k' : PublicKey) (sg : Bytes), k'.unlockhash W.H = .ok ub → sg.length = 64 →
        (Tx.v146 v').sign W.H (.self specReceiver) (.key k') (.bytes sg) = (.v146 { v' with receiverSig := some ⟨sg, true⟩ }, none) := by
      intro v' hv' hv'' k' sg hk' hsg
      simp only [Tx.sign, TxV146.signSelf, TxV146.signSelfRes, hk', hv', hv'', keyOr, Option.getD_some, hua, hub, bind, Except.bind, if_true, if_neg hne, (selfSign_ok hub hk' hsg).1, pure, Except.pure]
    rcases selfOne hL hH hk hfit (t1 := fun s => .v146 { v with senderSig := some s }) hua (signA v a2) with ⟨g1, g2⟩ | ⟨g1, sg, g2, g3⟩
    · rcases selfOne hL hH hk hfit (t1 := fun s => .v146 { v with receiverSig := some s }) hub (signB v a2 b2) with ⟨f1, f2⟩ | ⟨f1, sg', f2, f3⟩
      · obtain ⟨n, hn⟩ := signAll_two g2 f2
        refine ⟨_, n, _, false, hreq, hn, rfl, by simp [Tx.extraFulfilled, a1], ?_, Iff.rfl⟩
        rw [hi0]; simp [g1]
      · obtain ⟨n, hn⟩ := signAll_two g2 f3
        refine ⟨_, n, _, false, hreq, hn, rfl, by simp [Tx.extraFulfilled, a1], ?_, ?_⟩
        · rw [hi0]; simp [g1]
        · rw [hi0]; exact hi v.senderSig _
    · have hfit' : TxFits L (.v146 { v with senderSig := some ⟨sg, true⟩ }) :=
        ⟨hfit.1, hfit.2.1, hfit.2.2.1, hfit.2.2.2.1, hfit.2.2.2.2.1, hfit.2.2.2.2.2.1, (fun s hs => by cases hs; exact Nat.le_of_eq g2), hfit.2.2.2.2.2.2.2⟩
      rcases selfOne hL hH hk hfit' (t1 := fun s => .v146 { v with senderSig := some ⟨sg, true⟩, receiverSig := some s }) hub (signB { v with senderSig := some ⟨sg, true⟩ } a2 b2) with ⟨f1, f2⟩ | ⟨f1, sg', f2, f3⟩
      · obtain ⟨n, hn⟩ := signAll_two g3 f2
        refine ⟨_, n, _, false, hreq, hn, rfl, by simp [Tx.extraFulfilled, b1], ?_, ?_⟩
        · rw [hi0]; simp [f1]
        · rw [hi0]; exact hi _ v.receiverSig
      · obtain ⟨n, hn⟩ := signAll_two g3 f3
        refine ⟨_, n, _, true, hreq, hn, rfl, by simp [Tx.extraFulfilled], ?_, ?_⟩
        · rw [hi0]; simp [g1, f1]
        · rw [hi0]; exact hi _ _

theorem reduce_false : ∀ l : List CoinInput, reduceFulfilled false l = .ok false
  | [] => rfl
  | _ :: l => reduce_false l

/-- What is there to sign, in a transaction that spends coins. -/
structure ReadyBot (L : IpLib) (W : World) (t : Tx) (l : List CoinInput) : Prop where
  plain : Plain t
  legacy : ¬ IsLegacy t
  stakes : t.stakeInputs = []
  fits : TxFits L t
  inputs : t.coinInputs = some l
  nonempty : l ≠ []
  fresh : ∀ ci ∈ l, ∃ co, ci.parent = some co ∧ Ordinary W co.condition ∧ FreshFor co.condition ci.fulfillment
  selfs : ∀ p ∈ selfSignatures t, p.2.2 = none ∧ ∃ k u, p.2.1 = some k ∧ k.unlockhash W.H = .ok u
  parties : ∀ v, t = .v146 v → ∀ a b, v.senderKey = some a → v.receiverKey = some b → a.unlockhash W.H ≠ b.unlockhash W.H

theorem withInputs_selfs {t : Tx} (l : List CoinInput) : selfSignatures (withInputs t l) = selfSignatures t := by cases t <;> rfl
theorem withInputs_extra {H : Bytes → Bytes} {t : Tx} (l : List CoinInput) : (withInputs t l).extraRequests H = t.extraRequests H := by cases t <;> rfl
theorem itself_selfs {W : World} {t t' : Tx} (h : selfSignatures t' = selfSignatures t) : SignsItself W t' ↔ SignsItself W t := by
  unfold SignsItself; rw [h]

theorem signBots_ok {L : IpLib} (hL : LawfulIp L) {W : World} (hH : Digest32 W.H) (hk : GoodKeys W) {t : Tx} {l : List CoinInput} (hr : ReadyBot L W t l) :
    ∃ t' b l', W.signNew t = .ok t' ∧ t'.isFulfilled = .ok b ∧ t'.coinInputs = some l' ∧ l'.map CoinInput.parent = l.map CoinInput.parent ∧
      (b = true ↔ KeysSuffice W l ∧ SignsItself W t) ∧ (SignsItself W t' ↔ SignsItself W t) := by
  obtain ⟨rs, n, b, l', h1, h2, h3, h4, h5, h6, h7⟩ := signCoins_ok hL hH hk hr.plain hr.legacy hr.fits hr.inputs hr.fresh
  have hse := withInputs_selfs (t := t) l'
  have hpl : Plain (withInputs t l') := by
    have := hr.plain
    cases t <;> first | trivial | exact this.elim
  obtain ⟨ex, m, t', c, g1, g2, g3, g4, g5, g6⟩ := selfs_ok hL hH hk hpl h7 (by rw [hse]; exact hr.selfs) (fun v hv a b ha hb => by
    have := hr.parties
    cases t <;> simp only [withInputs, reduceCtorEq, Tx.v146.injEq] at hv
    rename TxV146 => v'
    subst hv
    exact this v' rfl a b ha hb)
  rw [itself_selfs hse] at g5 g6
  rw [withInputs_extra] at g1
  obtain ⟨q, hq⟩ := signAll_append W rs ex h3 g2
  have hreq : t.requests W.H = .ok (rs ++ ex) := by
    unfold Tx.requests
    simp only [hr.inputs, h1, hr.stakes, stakeRequests, g1, bind, Except.bind, pure, Except.pure, List.append_nil]
  rw [withInputs_coins hr.plain] at g3
  refine ⟨t', c && b, l', ?_, ?_, g3, h5, ?_, g6⟩
  · unfold World.signNew
    have : ¬ (rs ++ ex).length = 0 := by
      have := h2 hr.nonempty
      simp only [List.length_append]; omega
    simp only [hreq, bind, Except.bind, if_neg this, hq, pure, Except.pure]
  · unfold Tx.isFulfilled
    simp only [g4, g3, bind, Except.bind]
    cases c
    · exact reduce_false l'
    · simpa using h4
  · rw [Bool.and_eq_true, h6, g5, and_comm]

theorem signSubmit_bots {L : IpLib} (hL : LawfulIp L) {W : World} (hH : Digest32 W.H) (hk : GoodKeys W) (w : Wallets) {t : Tx} {l : List CoinInput}
    (hr : ReadyBot L W t l) : SubmitsIfAllKeys W (W.signSubmit w t) ∧ (KeysSuffice W l → SignsItself W t → ∃ t', (W.signSubmit w t).posted = [t']) := by
  obtain ⟨t', b, l', h1, h2, h3, h4, h5, h6⟩ := signBots_ok hL hH hk hr
  have e : W.signSubmit w t = if b then ⟨[t'], do return (← W.afterPost w t', true)⟩ else ⟨[], .ok (t', false)⟩ := by
    unfold World.signSubmit World.submit
    simp only [h1, h2, Outcome.ofRes]
  constructor
  · refine ⟨t', l', h3, ?_⟩
    rw [suffice_parents h4, h6, ← h5, e]
    cases b
    · exact .inr ⟨by simp, rfl, rfl⟩
    · exact .inl ⟨rfl, rfl⟩
  · intro hs hi
    rw [e, h5.mpr ⟨hs, hi⟩]
    exact ⟨t', rfl⟩

theorem items_assign {α β : Type} {max : Nat} {mk : α → Res β} {v : Option (List α)} {l : List β} (h : Items max mk v l) : assignList max mk v = .ok l := by
  have key : ∀ (xs : List α) (acc ys : List β), xs.mapM mk = .ok ys → (acc ++ ys).length ≤ max → addAllLimited max mk acc xs = (acc ++ ys, none) := by
    intro xs
    induction xs with
    | nil => intro acc ys h _; cases h; simp [addAllLimited]
    | cons x xs ih =>
      intro acc ys h hl
      rw [List.mapM_cons] at h
      obtain ⟨y, hy, h⟩ := bind_ok h
      obtain ⟨zs, hz, h⟩ := bind_ok h
      cases h
      have : ¬ acc.length = max := by simp at hl; omega
      have e : addLimited max mk acc x = (acc ++ [y], none) := by
        unfold addLimited
        rw [if_neg this, hy]
      rw [addAllLimited, e]
      simp only
      rw [ih (acc ++ [y]) zs hz (by simpa using hl)]
      simp
  unfold assignList
  rw [key _ [] l h.1 (by simpa using h.2)]
  simp

theorem items_mem {α β : Type} {max : Nat} {mk : α → Res β} {v : Option (List α)} {l : List β} (h : Items max mk v l) {y : β} (hy : y ∈ l) :
    ∃ xs x, v = some xs ∧ x ∈ xs ∧ mk x = .ok y := by
  obtain ⟨h, -⟩ := h
  cases v with
  | none => cases h; cases hy
  | some xs =>
    simp only [Option.getD_some] at h
    refine ⟨xs, ?_⟩
    induction xs generalizing l with
    | nil => cases h; cases hy
    | cons x xs ih =>
      rw [List.mapM_cons] at h
      obtain ⟨z, hz, h⟩ := bind_ok h
      obtain ⟨zs, hzs, h⟩ := bind_ok h
      cases h
      rcases List.mem_cons.mp hy with rfl | hy
      · exact ⟨x, rfl, List.mem_cons_self, hz⟩
      · obtain ⟨x', -, h1, h2⟩ := ih hy hzs
        exact ⟨x', rfl, List.mem_cons_of_mem _ h1, h2⟩

theorem names_made {v : Option (List NameArg)} {l : List BotName} (h : Items 5 BotName.new v l) : CountFits MadeName l := by
  refine ⟨by have := h.2; omega, fun n hn => ?_⟩
  obtain ⟨xs, x, -, -, hx⟩ := items_mem h hn
  cases x with
  | none => cases hx; exact .inl rfl
  | str s => exact .inr ⟨s, hx⟩
  | name _ => cases hx
  | other => cases hx

theorem nets_made {L : IpLib} {v : Option (List NetArg)} {l : List NetAddr} (hg : GivenPlainly v) (h : Items 10 (NetAddr.new L) v l) : CountFits (MadeNet L) l := by
  refine ⟨by have := h.2; omega, fun n hn => ?_⟩
  obtain ⟨xs, x, h1, h2, hx⟩ := items_mem h hn
  exact ⟨x, hg xs h1 x h2, hx⟩

theorem canPay_funds {W : World} {w : Wallets} {ks : Keys} {c : Currency} {src : Source} {refund : Recipient} (h : CanPay W w ks (amount c) src refund) (hc : GoodCurrency c)
    (hpos : 0 < amount c + amount W.fee) :
    ∃ ins rf fee, W.fundExtra w c src refund = .ok (ins, rf, fee) ∧ AllFit InputFits ins ∧ AmountFits fee ∧ (∀ o, rf = some o → OutputFits o) ∧ ins ≠ [] ∧
      (∀ ci ∈ ins, ∃ co, ci.parent = some co ∧ Ordinary { W with keys := ks } co.condition ∧ FreshFor co.condition ci.fulfillment) ∧
      ((∀ co, Eligible W.H w src co → Unlockable { W with keys := ks } co.condition) → KeysSuffice { W with keys := ks } ins) := by
  obtain ⟨ins, rf, fee, h1, h2, h3, h4, h5, h6⟩ := fundExtra_live h.good h.fee hc hpos h.source h.simple h.affordable h.refunds
  refine ⟨ins, rf, fee, h1, h2, h3, h4, h5, fun ci hci => ?_, fun hu => ?_⟩
  · obtain ⟨co, k0, k1, -, k3⟩ := h6 ci hci
    exact ⟨co, k1, h.ordinary co (eligible_spendable k0), k3⟩
  · intro ci hci co hco
    obtain ⟨co', k0, k1, -⟩ := h6 ci hci
    rw [hco] at k1; cases k1
    exact hu co k0

theorem keyForIndex_ready {W : World} {i : Option Int} {ks : Keys} {k : PublicKey} (h : KeyReady W i ks k) : W.keyForIndex i = .ok (ks, k) := by
  cases i with
  | none => exact h
  | some i =>
    obtain ⟨⟨addrs, a, h1, h2, h3, h4⟩, rfl⟩ := h
    have hlt : i.toNat < addrs.length := (List.getElem?_eq_some_iff.mp h3).1
    unfold World.keyForIndex
    have : ¬ (i < 0 ∨ i ≥ addrs.length) := by omega
    simp only [h1, bind, Except.bind, if_neg this, h3, h4, pure, Except.pure]

theorem keyFor_ready {W : World} {which : WhichKey} {ks : Keys} {k : PublicKey} (h : NamedReady W which ks k) : W.keyFor which = .ok (ks, k) := by
  cases which with
  | new => exact keyForIndex_ready (i := none) h
  | index i => exact keyForIndex_ready (i := some i) h
  | str s =>
    obtain ⟨h1, rfl⟩ := h
    simp only [World.keyFor, show W.keys.get? s = some k from h1]
  | uh u =>
    obtain ⟨h1, rfl⟩ := h
    simp only [World.keyFor, show W.keys.get? (u.str W.H) = some k from h1]
  | other => exact h.1.elim

/-- The keys stay filed, and the key chosen is one of them. -/
theorem chosen_own {W : World} {which : WhichKey} {ks : Keys} {k : PublicKey} (hf : ∀ a k, W.keys.lookup a = some k → HasAddress W.H k a) (h : W.keyFor which = .ok (ks, k)) :
    ∃ u, k.unlockhash W.H = .ok u ∧ ks.lookup (u.str W.H) ≠ none := by
  obtain ⟨⟨u, h1, h2⟩, -⟩ := keyFor_own hf h
  refine ⟨u, h1, ?_⟩
  have e : ks.get? (u.str W.H) = ks.lookup (u.str W.H) := if_neg (personal_text (unlockhash_type h1))
  rw [← e]; exact h2

theorem chosen_fits {W : World} {which : WhichKey} {ks : Keys} {k : PublicKey} (hk : GoodKeys { W with keys := ks }) (h : W.keyFor which = .ok (ks, k)) : KeyFits k := by
  suffices ∃ a, ks.get? a = some k by
    obtain ⟨a, ha⟩ := this
    exact Nat.le_of_eq (key_full (W := { W with keys := ks }) hk ha)
  have new : W.keys.new1 W.H W.derive = .ok (ks, k) → ∃ a, ks.get? a = some k := by
    intro h
    obtain ⟨a, ha, hn, hp⟩ : ∃ a, HasAddress W.H k a ∧ (∀ p ∈ W.keys.pairs, p.1 ≠ a) ∧ ks.pairs = W.keys.pairs ++ [(a, k)] := by
      unfold Keys.new1 at h
      split at h
      · obtain ⟨s', hs', h⟩ := bind_ok h
        cases h
        obtain ⟨a, ha, hn, rfl⟩ := addPair_ok hs'
        exact ⟨a, ha, hn, rfl⟩
      · obtain ⟨k, hk, h⟩ := bind_ok h
        obtain ⟨s', hs', h⟩ := bind_ok h
        cases h
        obtain ⟨a, ha, hn, rfl⟩ := addPair_ok hs'
        exact ⟨a, ha, hn, rfl⟩
    obtain ⟨u, hu, rfl⟩ := ha
    refine ⟨u.str W.H, ?_⟩
    have e : ks.get? (u.str W.H) = ks.lookup (u.str W.H) := if_neg (personal_text (unlockhash_type hu))
    rw [e]
    unfold Keys.lookup
    rw [hp, List.find?_append, List.find?_eq_none.mpr (fun p hpm => by simpa using hn p hpm)]
    simp
  have at_ : ∀ i, W.keyForIndex (some i) = .ok (ks, k) → ∃ a, ks.get? a = some k := by
    intro i h
    simp only [World.keyForIndex, bind, Except.bind] at h
    split at h
    · cases h
    · split at h
      · cases h
      · split at h
        · cases h
        · split at h
          · cases h
          · rename_i k' hk'; cases h; exact ⟨_, hk'⟩
  cases which with
  | new => exact new h
  | index i => exact at_ i h
  | other => cases h
  | str s =>
    simp only [World.keyFor, bind, Except.bind] at h
    split at h
    · rename_i k hk; cases h; exact ⟨_, hk⟩
    · split at h <;> cases h
  | uh u =>
    simp only [World.keyFor] at h
    split at h
    · rename_i k hk; cases h; exact ⟨_, hk⟩
    · cases h

/-- **C109** (`threebot.record_new`). Let the wallet be able to pay the registration (90 TFT, the price of the months and 50 TFT for each name but the first) and the
miner fee, let the number of months be 1 to 24, at most five names and ten addresses be given, all of them legal, and let the key asked for be there. Then
`record_new` makes a transaction, and submits it exactly if the wallet has the keys for its inputs. -/
theorem C109_record_new_partial (W : World) (w : Wallets) (L : IpLib) (months : Int) (names : Option (List NameArg)) (addresses : Option (List NetArg)) (index : Option Int)
    (src : Source) (refund : Recipient) (ns : List BotName) (as : List NetAddr) (ks : Keys) (k : PublicKey) (hL : LawfulIp L) (hH : Digest32 W.H)
    (hk0 : ∀ a k, W.keys.lookup a = some k → HasAddress W.H k a) (hk : GoodKeys { W with keys := ks }) (hm : 1 ≤ months ∧ months ≤ 24)
    (hgiven : names ≠ none ∨ addresses ≠ none) (hns : Items 5 BotName.new names ns) (has : Items 10 (NetAddr.new L) addresses as) (hpl : GivenPlainly addresses)
    (hkey : KeyReady W index ks k) (hpay : CanPay W w ks (90 * 10^9 + monthlyPrice months.toNat + 50 * 10^9 * (ns.length - 1)) src refund) :
    SubmitsIfAllKeys { W with keys := ks } (W.recordNew L months names addresses index src refund) ∧
      ((∀ co, Eligible W.H w src co → Unlockable { W with keys := ks } co.condition) → ∃ t, (W.recordNew L months names addresses index src refund).posted = [t]) := by
  have hkf := keyForIndex_ready hkey
  obtain ⟨u, hu, hl⟩ := chosen_own (which := match index with | none => .new | some i => .index i) hk0 (k := k) (ks := ks) (by cases index <;> exact hkf)
  have hreg : registration L months names addresses = .ok { months := months, names := ns, addresses := as } := by
    have hnn : ¬ (names.isNone = true ∧ addresses.isNone = true) := by
      rintro ⟨a, b⟩
      rcases hgiven with h | h
      · exact h (Option.isNone_iff_eq_none.mp a)
      · exact h (Option.isNone_iff_eq_none.mp b)
    have hmm : ({} : TxV144).setMonths months = .ok { months := months } := by
      unfold TxV144.setMonths; rw [if_neg (by omega)]
    unfold registration
    simp only [hmm, bind, Except.bind, if_neg hnn, show assignList maxNames BotName.new names = .ok ns from items_assign hns,
      show assignList maxAddresses (NetAddr.new L) addresses = .ok as from items_assign has, pure, Except.pure]
  obtain ⟨c, hc, gc, ac⟩ := (C44_registration_fee { months := months, names := ns, addresses := as }).1 (by show 0 ≤ months; omega) (by show months < _; omega)
    (by have := hns.2; show ns.length < _; omega)
  rw [← ac] at hpay
  obtain ⟨ins, rf, fee, h1, h2, h3, h4, h5, h6, h7⟩ := canPay_funds hpay gc (by rw [ac]; show 0 < 90 * 10 ^ 9 + _ + _ + _; omega)
  have hkf' := chosen_fits hk (which := match index with | none => .new | some i => .index i) (k := k) (by cases index <;> exact hkf)
  have hr : ReadyBot L { W with keys := ks } (.v144 { months := months, names := ns, addresses := as, coinInputs := ins, refund := rf, fee := some fee, key := some k }) ins :=
    ⟨trivial, by simp [IsLegacy], rfl, ⟨nets_made hpl has, names_made hns, ⟨by show 0 ≤ months; omega, hm.2⟩, (fun c hc => by cases hc; exact h3), h2, h4,
      (fun k' hk' => by cases hk'; exact hkf'), fun s hs => nomatch hs⟩, rfl, h5, h6,
      (fun p hp => by
        simp only [selfSignatures, List.mem_singleton] at hp
        subst hp
        exact ⟨rfl, k, u, rfl, hu⟩), fun v hv => nomatch hv⟩
  have e : W.recordNew L months names addresses index src refund = ({ W with keys := ks } : World).signSubmit w
      (.v144 { months := months, names := ns, addresses := as, coinInputs := ins, refund := rf, fee := some fee, key := some k }) := by
    unfold World.recordNew
    simp only [hreg, hc, hpay.balance, h1, hkf, Outcome.ofRes]
  rw [e]
  obtain ⟨g1, g2⟩ := signSubmit_bots hL (W := { W with keys := ks }) hH hk w hr
  exact ⟨g1, fun hun => g2 (h7 hun) (by
    intro p hp
    simp only [selfSignatures, List.mem_singleton] at hp
    subst hp
    intro k' hk'
    cases hk'
    exact ⟨_, ⟨u, hu, rfl⟩, hl⟩)⟩

/-- **C109** (`erc20.address_register`). The same for the registration of an address (10 TFT). -/
theorem C109_address_register_partial (W : World) (w : Wallets) (which : WhichKey) (src : Source) (refund : Recipient) (ks : Keys) (k : PublicKey) (hH : Digest32 W.H)
    (hk0 : ∀ a k, W.keys.lookup a = some k → HasAddress W.H k a) (hk : GoodKeys { W with keys := ks }) (hkey : NamedReady W which ks k)
    (hpay : CanPay W w ks (10 * 10^9) src refund) :
    SubmitsIfAllKeys { W with keys := ks } (W.addressRegister which src refund) ∧
      ((∀ co, Eligible W.H w src co → Unlockable { W with keys := ks } co.condition) → ∃ t, (W.addressRegister which src refund).posted = [t]) := by
  have hkf := keyFor_ready hkey
  obtain ⟨u, hu, hl⟩ := chosen_own hk0 hkf
  have hkf' := chosen_fits hk hkf
  have hg : GoodCurrency registrationFee := ⟨rfl, by decide⟩
  have ha : amount registrationFee = 10 * 10^9 := by decide
  rw [← ha] at hpay
  obtain ⟨ins, rf, fee, h1, h2, h3, h4, h5, h6, h7⟩ := canPay_funds hpay hg (by rw [ha]; omega)
  have hr : ReadyBot toyIp { W with keys := ks } (.v210 { key := some k, coinInputs := some ins, refund := rf, fee := some fee }) ins :=
    ⟨trivial, by simp [IsLegacy], rfl, ⟨(fun k' hk' => by cases hk'; exact hkf'), (fun s hs => nomatch hs), (fun c hc => by cases hc; exact h3), ⟨ins, rfl, h2⟩, h4⟩, rfl, h5, h6,
      (fun p hp => by
        simp only [selfSignatures, List.mem_singleton] at hp
        subst hp
        exact ⟨rfl, k, u, rfl, hu⟩), fun v hv => nomatch hv⟩
  have e : W.addressRegister which src refund = ({ W with keys := ks } : World).signSubmit w (.v210 { key := some k, coinInputs := some ins, refund := rf, fee := some fee }) := by
    unfold World.addressRegister
    simp only [hkf, hpay.balance, h1, Outcome.ofRes]
  rw [e]
  obtain ⟨g1, g2⟩ := signSubmit_bots toyIp_lawful (W := { W with keys := ks }) hH hk w hr
  exact ⟨g1, fun hun => g2 (h7 hun) (by
    intro p hp
    simp only [selfSignatures, List.mem_singleton] at hp
    subst hp
    intro k' hk'
    cases hk'
    exact ⟨_, ⟨u, hu, rfl⟩, hl⟩)⟩

/-- **C109** (`threebot.record_update`). The same for the update of the record of a 3Bot that is active or for which months are paid; it is submitted exactly if the wallet has
the key of the 3Bot, too. -/
theorem C109_record_update_partial (W : World) (w : Wallets) (L : IpLib) (id months : Int) (namesAdd namesRemove : Option (List NameArg)) (addrsAdd addrsRemove : Option (List NetArg))
    (src : Source) (refund : Recipient) (na nr : List BotName) (aa ar : List NetAddr) (k : PublicKey) (exp now : Int) (hL : LawfulIp L) (hH : Digest32 W.H) (hk : GoodKeys W)
    (hid : 0 < id ∧ id < 2^32) (hm : 0 ≤ months ∧ months ≤ 24)
    (hgiven : 1 ≤ months ∨ namesAdd ≠ none ∨ namesRemove ≠ none ∨ addrsAdd ≠ none ∨ addrsRemove ≠ none)
    (hna : Items 5 BotName.new namesAdd na) (hnr : Items 5 BotName.new namesRemove nr) (haa : Items 10 (NetAddr.new L) addrsAdd aa)
    (har : Items 10 (NetAddr.new L) addrsRemove ar) (hpa : GivenPlainly addrsAdd) (hpr : GivenPlainly addrsRemove)
    (hrec : W.record id = .ok (k, exp)) (hnow : W.chainTime = .ok now) (hact : now < exp ∨ 1 ≤ months) (hkf : FullKey k)
    (hpay : CanPay W w W.keys (monthlyPrice months.toNat + (if aa = [] ∧ ar = [] then 0 else 20 * 10^9) + 50 * 10^9 * na.length) src refund)
    (hpos : 0 < monthlyPrice months.toNat + (if aa = [] ∧ ar = [] then 0 else 20 * 10^9) + 50 * 10^9 * na.length + amount W.fee) :
    SubmitsIfAllKeys W (W.recordUpdate L id months namesAdd namesRemove addrsAdd addrsRemove src refund) ∧
      ((∀ co, Eligible W.H w src co → Unlockable W co.condition) → (∃ a, HasAddress W.H k a ∧ W.keys.lookup a ≠ none) →
        ∃ t, (W.recordUpdate L id months namesAdd namesRemove addrsAdd addrsRemove src refund).posted = [t]) := by
  obtain ⟨e0, hu⟩ := key_unlockhash W.H (Nat.le_of_eq hkf)
  have hch : recordChange L id months namesAdd namesRemove addrsAdd addrsRemove =
      .ok { botid := some id, months := months, namesAdd := na, namesRemove := nr, addrsAdd := aa, addrsRemove := ar } := by
    have hnn : ¬ (months < 1 ∧ namesAdd.isNone = true ∧ namesRemove.isNone = true ∧ addrsAdd.isNone = true ∧ addrsRemove.isNone = true) := by
      simp only [Option.isNone_iff_eq_none]
      rintro ⟨a, b, c, d, e⟩
      rcases hgiven with h | h | h | h | h
      · omega
      all_goals exact h (by assumption)
    have hbi : setBotId id = .ok (some id) := by unfold setBotId; rw [if_neg (by omega)]
    have hmm : ({ botid := some id } : TxV145).setMonths months = .ok { botid := some id, months := months } := by
      unfold TxV145.setMonths; rw [if_neg (by omega)]
    unfold recordChange
    simp only [hmm, hbi, bind, Except.bind, if_neg hnn, show assignList maxNames BotName.new namesAdd = .ok na from items_assign hna,
      show assignList maxNames BotName.new namesRemove = .ok nr from items_assign hnr,
      show assignList maxAddresses (NetAddr.new L) addrsAdd = .ok aa from items_assign haa,
      show assignList maxAddresses (NetAddr.new L) addrsRemove = .ok ar from items_assign har, pure, Except.pure]
  have hap : W.activeOrPaid id months = .ok k := by
    unfold World.activeOrPaid
    simp only [hrec, hnow, bind, Except.bind]
    rw [if_neg (by omega)]; rfl
  obtain ⟨c, hc, gc, ac⟩ := (C45_update_fee { botid := some id, months := months, namesAdd := na, namesRemove := nr, addrsAdd := aa, addrsRemove := ar } {}
    (by show months < _; omega) (by have := hna.2; show na.length < _; omega) (by decide)).1
  rw [← ac] at hpay hpos
  obtain ⟨ins, rf, fee, h1, h2, h3, h4, h5, h6, h7⟩ := canPay_funds hpay gc hpos
  have hr : ReadyBot L W (.v145 { botid := some id, months := months, namesAdd := na, namesRemove := nr, addrsAdd := aa, addrsRemove := ar, parentKey := some k, coinInputs := ins, refund := rf, fee := some fee }) ins :=
    ⟨trivial, by simp [IsLegacy], rfl, ⟨(fun i hi => by cases hi; exact ⟨by omega, hid.2⟩), nets_made hpa haa, nets_made hpr har, names_made hna, names_made hnr, hm,
      (fun c hc => by cases hc; exact h3), h2, h4, fun s hs => nomatch hs⟩, rfl, h5, h6,
      (fun p hp => by
        simp only [selfSignatures, List.mem_singleton] at hp
        subst hp
        exact ⟨rfl, k, _, rfl, hu⟩), fun v hv => nomatch hv⟩
  have e : W.recordUpdate L id months namesAdd namesRemove addrsAdd addrsRemove src refund = W.signSubmit w
      (.v145 { botid := some id, months := months, namesAdd := na, namesRemove := nr, addrsAdd := aa, addrsRemove := ar, parentKey := some k, coinInputs := ins, refund := rf, fee := some fee }) := by
    unfold World.recordUpdate
    simp only [hch, hap, hc, hpay.balance, h1, Outcome.ofRes]
  rw [e]
  obtain ⟨g1, g2⟩ := signSubmit_bots hL hH hk w hr
  exact ⟨g1, fun hun hown => g2 (h7 hun) (by
    intro p hp
    simp only [selfSignatures, List.mem_singleton] at hp
    subst hp
    intro k' hk'
    cases hk'
    exact hown)⟩

/-- **C109** (`threebot.name_transfer`). The same for the transfer of names between two active 3Bots with keys of different addresses (for equal ones see C73); it is
submitted exactly if the wallet has the keys of both. -/
theorem C109_name_transfer_partial (W : World) (w : Wallets) (sender receiver : Int) (names : Option (List NameArg)) (src : Source) (refund : Recipient) (ns : List BotName)
    (ka kb : PublicKey) (ea eb now : Int) (hH : Digest32 W.H) (hk : GoodKeys W) (hids : 0 < sender ∧ sender < 2^32 ∧ 0 < receiver ∧ receiver < 2^32)
    (hns : Items 5 BotName.new names ns) (hne : ns ≠ []) (hnow : W.chainTime = .ok now) (hra : W.record sender = .ok (ka, ea)) (hrb : W.record receiver = .ok (kb, eb))
    (hact : now < ea ∧ now < eb) (hfa : FullKey ka) (hfb : FullKey kb) (hdiff : ∀ a, HasAddress W.H ka a → ¬ HasAddress W.H kb a)
    (hpay : CanPay W w W.keys (50 * 10^9 * ns.length) src refund) :
    SubmitsIfAllKeys W (W.nameTransfer sender receiver names src refund) ∧
      ((∀ co, Eligible W.H w src co → Unlockable W co.condition) → (∀ k, k = ka ∨ k = kb → ∃ a, HasAddress W.H k a ∧ W.keys.lookup a ≠ none) →
        ∃ t, (W.nameTransfer sender receiver names src refund).posted = [t]) := by
  obtain ⟨e0, hua⟩ := key_unlockhash W.H (Nat.le_of_eq hfa)
  obtain ⟨e1, hub⟩ := key_unlockhash W.H (Nat.le_of_eq hfb)
  have hlen : 0 < ns.length := List.length_pos_iff.mpr hne
  have htr : W.transfer sender receiver names = .ok { sender := some sender, receiver := some receiver, names := ns, senderKey := some ka, receiverKey := some kb } := by
    have ha : setBotId sender = .ok (some sender) := by unfold setBotId; rw [if_neg (by omega)]
    have hb : setBotId receiver = .ok (some receiver) := by unfold setBotId; rw [if_neg (by omega)]
    have hka : W.activeKey now sender = .ok ka := by
      unfold World.activeKey
      simp only [hra, bind, Except.bind]
      rw [if_neg (by omega)]; rfl
    have hkb : W.activeKey now receiver = .ok kb := by
      unfold World.activeKey
      simp only [hrb, bind, Except.bind]
      rw [if_neg (by omega)]; rfl
    unfold World.transfer
    simp only [ha, hb, hka, hkb, hnow, bind, Except.bind, show assignList maxNames BotName.new names = .ok ns from items_assign hns,
      if_neg (show ¬ ns.length = 0 by omega), pure, Except.pure]
  obtain ⟨c, hc, gc, ac⟩ := (C45_update_fee {} { sender := some sender, receiver := some receiver, names := ns, senderKey := some ka, receiverKey := some kb }
    (by decide) (by decide) (by have := hns.2; show ns.length < _; omega)).2
  rw [← ac] at hpay
  obtain ⟨ins, rf, fee, h1, h2, h3, h4, h5, h6, h7⟩ := canPay_funds hpay gc (by rw [ac]; show 0 < 50 * 10 ^ 9 * ns.length + _; omega)
  have hr : ReadyBot toyIp W (.v146 { sender := some sender, receiver := some receiver, names := ns, senderKey := some ka, receiverKey := some kb, coinInputs := some ins, refund := rf, fee := some fee }) ins :=
    ⟨trivial, by simp [IsLegacy], rfl, ⟨(fun i hi => by cases hi; exact ⟨by omega, by omega⟩), (fun i hi => by cases hi; exact ⟨by omega, by omega⟩), names_made hns,
      (fun c hc => by cases hc; exact h3), ⟨ins, rfl, h2⟩, h4, (fun s hs => nomatch hs), fun s hs => nomatch hs⟩, rfl, h5, h6,
      (fun p hp => by
        simp only [selfSignatures, List.mem_cons, List.not_mem_nil, or_false] at hp
        rcases hp with rfl | rfl
        · exact ⟨rfl, ka, _, rfl, hua⟩
        · exact ⟨rfl, kb, _, rfl, hub⟩), fun v hv a b ha hb => by
          cases hv
          cases ha; cases hb
          intro h
          exact hdiff _ ⟨_, hua, rfl⟩ ⟨_, h ▸ hua, rfl⟩⟩
  have e : W.nameTransfer sender receiver names src refund = W.signSubmit w
      (.v146 { sender := some sender, receiver := some receiver, names := ns, senderKey := some ka, receiverKey := some kb, coinInputs := some ins, refund := rf, fee := some fee }) := by
    unfold World.nameTransfer
    simp only [htr, hc, hpay.balance, h1, Outcome.ofRes]
  rw [e]
  obtain ⟨g1, g2⟩ := signSubmit_bots toyIp_lawful hH hk w hr
  exact ⟨g1, fun hun hown => g2 (h7 hun) (by
    intro p hp
    simp only [selfSignatures, List.mem_cons, List.not_mem_nil, or_false] at hp
    rcases hp with rfl | rfl
    · intro k' hk'; cases hk'; exact hown ka (.inl rfl)
    · intro k' hk'; cases hk'; exact hown kb (.inr rfl))⟩

/-! ## C110: minting -/

/-- The transaction with another mint fulfillment. -/
def withMint (t : Tx) (f : Fulfillment) : Tx :=
  match t with
  | .v128 v => .v128 { v with mintFulfillment := some f }
  | .v129 v => .v129 { v with mintFulfillment := some f }
  | t => t

def mintSig (W : World) (t : Tx) (pk : PublicKey) : Bytes :=
  match t.preimage W.H .mint pk with
  | .ok b => W.sign pk (W.H b)
  | .error _ => []

theorem mint_sign {H : Bytes → Bytes} {t : Tx} {c : Option Condition} {f : Fulfillment} (h : mintPart t = some (c, some f)) (k : KeyArg) (s : BVal) :
    t.sign H .mint k s = (withMint t (f.signatureAdd k s).1, (f.signatureAdd k s).2) := by
  cases t <;> simp only [mintPart, reduceCtorEq, Option.some.injEq, Prod.mk.injEq] at h
  · simp only [Tx.sign, withMint, signMint, h.2]
  · simp only [Tx.sign, withMint, signMint, h.2]

theorem withMint_part {t : Tx} {c : Option Condition} {f : Option Fulfillment} (h : mintPart t = some (c, f)) (f' : Fulfillment) : mintPart (withMint t f') = some (c, some f') := by
  cases t <;> simp only [mintPart, reduceCtorEq, Option.some.injEq, Prod.mk.injEq] at h
  · simp [withMint, mintPart, h.1]
  · simp [withMint, mintPart, h.1]
theorem withMint_twice (t : Tx) (a b : Fulfillment) : withMint (withMint t a) b = withMint t b := by cases t <;> rfl
theorem withMint_self {t : Tx} {c : Option Condition} {f : Fulfillment} (h : mintPart t = some (c, some f)) : withMint t f = t := by
  cases t <;> simp only [mintPart, reduceCtorEq, Option.some.injEq, Prod.mk.injEq] at h
  · rename_i v; show Tx.v128 { v with mintFulfillment := some f } = _; rw [← h.2]
  · rename_i v; show Tx.v129 { v with mintFulfillment := some f } = _; rw [← h.2]

/-- The owners asked sign the mint fulfillment as far as the wallet has their keys. -/
theorem signMint_ok {W : World} (hH : Digest32 W.H) (hk : GoodKeys W) {t0 : Tx} (hleg : ¬ IsLegacy t0)
    (hpre : ∀ pk, FullKey pk → ∃ b, t0.preimage W.H .mint pk = .ok b) (us : List UnlockHash) :
    ∀ {t : Tx} {c : Option Condition} {f : Fulfillment}, SameSigned W.H t0 t → mintPart t = some (c, some f) → AddOk W (mintSig W t0) f us →
      ∃ n, W.signAll (us.map fun u => ⟨.mint, { owner := u }⟩) t = .ok (withMint t (addAll W (mintSig W t0) f us), n) := by
  induction us with
  | nil => intro t c f _ hm _; exact ⟨0, by simp only [List.map_nil, World.signAll, addAll, withMint_self hm]⟩
  | cons u us ih =>
    intro t c f hs hm ha
    obtain ⟨ha1, ha2⟩ := ha
    rw [addAll]
    have key : ∃ b, W.signOne t ⟨.mint, { owner := u }⟩ = .ok (withMint t (addStep W (mintSig W t0) f u).1, b) ∧ SameSigned W.H t0 (withMint t (addStep W (mintSig W t0) f u).1) := by
      unfold World.signOne
      unfold addStep at ha1 ⊢
      cases hg : W.keys.get? (u.str W.H) with
      | none => exact ⟨false, by simp only [withMint_self hm], by simp only [withMint_self hm]; exact hs⟩
      | some pk =>
        simp only [hg] at ha1 ⊢
        obtain ⟨b, hb⟩ := hpre pk (key_full hk hg)
        have hb' : t.preimage W.H .mint pk = .ok b := by rw [hs.preimage]; exact hb
        have hsg : mintSig W t0 pk = W.sign pk (W.H b) := by unfold mintSig; rw [hb]
        rw [hsg] at ha1 ⊢
        have hin : W.inputHash t .mint pk = .ok ⟨W.H b⟩ := by
          unfold World.inputHash
          rw [hb']; exact hashNew32 (hH b)
        rw [hin]
        simp only
        have hu : ∃ u', pk.unlockhash W.H = .ok u' ∧ ¬ (u.type ≠ 0 ∧ u.str W.H ≠ u'.str W.H) := by
          obtain ⟨a', h1, h2⟩ := get_lookup hg
          obtain ⟨u', hu, hua⟩ := hk.filed a' pk h1
          refine ⟨u', hu, ?_⟩
          rintro ⟨n1, n2⟩
          rcases h2 with rfl | h2
          · exact n2 hua.symm
          · exact n1 (take_uh h2)
        obtain ⟨u', hu, hn⟩ := hu
        have hsx := mint_sign (H := W.H) hm (.key pk) (.bytes (W.sign pk (W.H b)))
        rw [ha1] at hsx
        unfold Request.fulfillCb
        simp only [hu, if_neg hn, Bool.false_eq_true, if_false, hsx]
        refine ⟨true, rfl, ?_⟩
        have := sign_same W.H t (hs.legacy hleg) .mint (.key pk) (.bytes (W.sign pk (W.H b)))
        rw [hsx] at this
        exact hs.trans this
    obtain ⟨b, h1, h2⟩ := key
    obtain ⟨n, hn⟩ := ih h2 (withMint_part hm _) ha2
    rw [withMint_twice] at hn
    refine ⟨if b then n + 1 else n, ?_⟩
    simp only [List.map_cons, World.signAll, h1, bind, Except.bind, hn, pure, Except.pure]

theorem mintSig_length {W : World} (hk : GoodKeys W) {t : Tx} (hpre : ∀ pk, FullKey pk → ∃ b, t.preimage W.H .mint pk = .ok b) (pk : PublicKey)
    (h : FullKey pk) : (mintSig W t pk).length = 64 := by
  obtain ⟨b, hb⟩ := hpre pk h
  unfold mintSig; rw [hb]; exact hk.sig _ _

theorem fresh_fits {c : Condition} {f : Fulfillment} (h : FreshFor c f) (hs : ∀ k s sec, f = .swap k s sec → sec = none) : FulfillmentFits f := by
  cases f with
  | single k s =>
    obtain ⟨rfl, rfl, -⟩ := h
    exact ⟨by unfold KeyFits HashFits; decide, fun x hx => nomatch hx⟩
  | multi ps => obtain ⟨rfl, -⟩ := h; exact ⟨by unfold Few; decide, fun x hx => nomatch hx⟩
  | swap k s sec =>
    obtain ⟨rfl, rfl, -⟩ := h
    cases hs _ _ _ rfl
    exact ⟨by unfold KeyFits HashFits; decide, (fun x hx => nomatch hx), fun x hx => nomatch hx⟩

theorem mint_fulfillable {W : World} {c : Condition} (h : Ordinary W c) : ∃ f, fulfillmentFromCondition (some c) = .ok f ∧ FreshFor c f ∧ FulfillmentFits f := by
  obtain ⟨f, h1, h2⟩ := ordinary_fulfillable (co := ⟨⟨none⟩, c, ⟨[]⟩⟩) h
  unfold CoinInput.ofOutput at h1
  obtain ⟨f', h3, h4⟩ := bind_ok h1
  cases h4
  refine ⟨f, h3, h2, fresh_fits h2 fun k s sec e => ?_⟩
  subst e
  obtain ⟨-, -, a, b, hh, l, rfl⟩ := h2
  unfold fulfillmentFromCondition at h3
  cases h3; rfl

/-- A minting transaction is signed; it is complete exactly if the wallet has the keys for the mint condition. -/
theorem signMinting {L : IpLib} (hL : LawfulIp L) {W : World} (hH : Digest32 W.H) (hk : GoodKeys W) {t : Tx} {c : Condition} {f : Fulfillment} (hm : mintPart t = some (some c, some f))
    (hfit : TxFits L t) (ho : Ordinary W c) (hf : FreshFor c f) :
    ∃ t' b, W.signNew t = .ok t' ∧ t'.isFulfilled = .ok b ∧ (b = true ↔ Unlockable W c) := by
  have hleg : ¬ IsLegacy t := by cases t <;> simp only [mintPart, reduceCtorEq] at hm <;> simp [IsLegacy]
  have hpre : ∀ pk, FullKey pk → ∃ b, t.preimage W.H .mint pk = .ok b := fun pk hpk =>
    C99_signable L hL W.H t hfit .mint (by cases t <;> simp only [mintPart, reduceCtorEq, Option.some.injEq, Prod.mk.injEq] at hm <;> simp [HasTarget, hm.2]) pk (Nat.le_of_eq hpk)
  obtain ⟨g1, b, g2, g3⟩ := fresh_add hk (mintSig_length hk hpre) ho hf
  obtain ⟨n, hn⟩ := signMint_ok hH hk hleg hpre (ownersOf c) (.refl _ _) hm g1
  obtain ⟨r1, r2⟩ := fresh_requests ho hf
  have hreq : t.requests W.H = .ok ((ownersOf c).map fun u => ⟨.mint, { owner := u }⟩) := by
    have hex : t.extraRequests W.H = .ok ((ownersOf c).map fun u => ⟨.mint, { owner := u }⟩) := by
      cases t <;> simp only [mintPart, reduceCtorEq, Option.some.injEq, Prod.mk.injEq] at hm
      all_goals
        simp only [Tx.extraRequests, mintRequests, hm.1, hm.2, r1, bind, Except.bind, pure, Except.pure, List.map_map]
        rfl
    have hci : t.coinInputs = some [] := by cases t <;> simp only [mintPart, reduceCtorEq] at hm <;> rfl
    have hst : t.stakeInputs = [] := by cases t <;> simp only [mintPart, reduceCtorEq] at hm <;> rfl
    unfold Tx.requests
    simp only [hci, hst, coinRequests, stakeRequests, hex, bind, Except.bind, pure, Except.pure, List.append_nil, List.nil_append]
  refine ⟨withMint t (addAll W (mintSig W t) f (ownersOf c)), b, ?_, ?_, g3⟩
  · unfold World.signNew
    have : ¬ ((ownersOf c).map fun u => (⟨.mint, { owner := u }⟩ : TxRequest)).length = 0 := by
      rw [List.length_map]; simpa using r2
    simp only [hreq, bind, Except.bind, if_neg this, hn, pure, Except.pure]
  · have hp := withMint_part hm (addAll W (mintSig W t) f (ownersOf c))
    generalize withMint t (addAll W (mintSig W t) f (ownersOf c)) = t' at hp
    have hx : t'.extraFulfilled = .ok b := by
      cases t' <;> simp only [mintPart, reduceCtorEq, Option.some.injEq, Prod.mk.injEq] at hp
      all_goals simpa only [Tx.extraFulfilled, mintFulfilled, hp.1, hp.2, Option.getD_some] using g2
    have hci : t'.coinInputs = some [] := by cases t' <;> simp only [mintPart, reduceCtorEq] at hp <;> rfl
    unfold Tx.isFulfilled
    simp only [hx, hci, bind, Except.bind]
    cases b <;> rfl

theorem dataUnlessNone_total {d : DataArg} {b : Bytes} (h : payload d = some b) (hl : b.length ≤ 83) : dataUnlessNone d = .ok b := by
  unfold dataUnlessNone
  cases d <;> simp only [payload, Option.some.injEq] at h
  · subst h; rfl
  · subst h; simp only [setData]; rw [if_neg (by omega)]
  · subst h; simp only [setData]; rw [if_neg (by omega)]
  · subst h; simp only [setData]; rw [if_neg (by omega)]
  · cases h

/-- **C110** (`minter.definition_set`). Let the minter be given as a recipient with a personal or multi-signature address, the data be at most 83 bytes, and the current mint
condition be known. Then `definition_set` makes a transaction; it is submitted exactly if the wallet has the keys for the mint condition and returned unsubmitted
otherwise. -/
theorem C110_definition_set_partial (W : World) (nonce : Bytes) (minter : Recipient) (data : DataArg) (c p : Condition) (u : UnlockHash) (b : Bytes) (hH : Digest32 W.H)
    (hk : GoodKeys W) (hfee : AmountFits W.fee) (hc : fromRecipient W.H minter .none = .ok c) (hcf : ConditionFits c) (hu : c.unlockhash W.H = .ok u) (ht : u.type = 1 ∨ u.type = 3)
    (hd : payload data = some b) (hdl : b.length ≤ 83) (hp : W.mintCondition = .ok p) (ho : Ordinary W p) :
    SubmitsIfMinter W p (W.definitionSet nonce minter data) := by
  obtain ⟨f, h1, h2, h3⟩ := mint_fulfillable ho
  have hset : Currency.set (.cur W.fee) = .ok ⟨some W.fee.value⟩ := rfl
  have hty : minterType W.H c = .ok () := by
    unfold minterType
    simp only [hu, bind, Except.bind, if_pos ht]; rfl
  have e : W.mintDefinition nonce minter data =
      .ok (.v128 { nonce := nonce, mintCondition := c, minerFees := [⟨some W.fee.value⟩], data := b, parent := some p, mintFulfillment := some f }) := by
    unfold World.mintDefinition
    simp only [hset, hc, hty, dataUnlessNone_total hd hdl, hp, h1, bind, Except.bind, pure, Except.pure]
  obtain ⟨t', ok, g1, g2, g3⟩ := signMinting toyIp_lawful hH hk
    (t := .v128 { nonce := nonce, mintCondition := c, minerFees := [⟨some W.fee.value⟩], data := b, parent := some p, mintFulfillment := some f }) rfl
    ⟨(fun f' hf' => by cases hf'; exact h3), hcf, ⟨by show (1 : Nat) ≤ 2 ^ 20; decide, fun x hx => by rw [List.mem_singleton.mp hx]; exact hfee⟩, by show b.length ≤ _; omega⟩ ho h2
  have e2 : W.definitionSet nonce minter data = if ok then ⟨[t'], do let _ ← W.put t'; return (t', true)⟩ else ⟨[], .ok (t', false)⟩ := by
    unfold World.definitionSet World.submitOnly
    simp only [e, g1, g2, Outcome.ofRes]
  refine ⟨t', ?_⟩
  rw [e2, ← g3]
  cases ok
  · exact .inr ⟨by simp, rfl, rfl⟩
  · exact .inl ⟨rfl, rfl⟩

/-- **C110** (`minter.coins_new`). The same for the creation of coins. -/
theorem C110_coins_new_partial (W : World) (w : Wallets) (nonce : Bytes) (r : Recipient) (amt : CVal) (lock : LockVal) (data : DataArg) (n : Nat) (c p : Condition) (b : Bytes)
    (hH : Digest32 W.H) (hk : GoodKeys W) (hfee : AmountFits W.fee) (hw : W.balance = .ok w) (hamt : ∀ c, amt = .cur c → GoodCurrency c) (hask : asked W.H r amt lock = some (n, c))
    (hn : n < 2^256) (hcf : ConditionFits c) (hd : payload data = some b) (hdl : b.length ≤ 83) (hp : W.mintCondition = .ok p) (ho : Ordinary W p) :
    SubmitsIfMinter W p (W.coinsNew nonce r amt lock data) := by
  unfold asked at hask
  split at hask
  · rename_i a c' ha hc'
    split at hask
    · rename_i hpos
      cases hask
      have hg := currency_set_good hamt ha
      have hpa : positiveAmount amt = .ok a := by
        unfold positiveAmount
        have : ¬ a.le zeroCur = true := by rw [le_amount hg good_zeroCur, amount_zeroCur]; omega
        simp only [ha, bind, Except.bind, if_neg this, pure, Except.pure]
      obtain ⟨f, h1, h2, h3⟩ := mint_fulfillable ho
      have hset : Currency.set (.cur W.fee) = .ok ⟨some W.fee.value⟩ := rfl
      have e : W.coinCreation nonce r amt lock data =
          .ok (.v129 { nonce := nonce, coinOutputs := [⟨a, c, ⟨[]⟩⟩], minerFees := [⟨some W.fee.value⟩], data := b, parent := some p, mintFulfillment := some f }) := by
        unfold World.coinCreation
        simp only [hset, hpa, hc', dataUnlessNone_total hd hdl, hp, h1, bind, Except.bind, pure, Except.pure]
      obtain ⟨t', ok, g1, g2, g3⟩ := signMinting toyIp_lawful hH hk
        (t := .v129 { nonce := nonce, coinOutputs := [⟨a, c, ⟨[]⟩⟩], minerFees := [⟨some W.fee.value⟩], data := b, parent := some p, mintFulfillment := some f }) rfl
        ⟨(fun f' hf' => by cases hf'; exact h3), ⟨by show (1 : Nat) ≤ 2 ^ 20; decide, fun x hx => by rw [List.mem_singleton.mp hx]; exact ⟨⟨hg, hn⟩, hcf⟩⟩,
          ⟨by show (1 : Nat) ≤ 2 ^ 20; decide, fun x hx => by rw [List.mem_singleton.mp hx]; exact hfee⟩, by show b.length ≤ _; omega⟩ ho h2
      have e2 : W.coinsNew nonce r amt lock data = if ok then ⟨[t'], do return (← W.afterPost w t', true)⟩ else ⟨[], .ok (t', false)⟩ := by
        unfold World.coinsNew World.signSubmit World.submit
        simp only [hw, e, g1, g2, Outcome.ofRes]
      refine ⟨t', ?_⟩
      rw [e2, ← g3]
      cases ok
      · exact .inr ⟨by simp, rfl, rfl⟩
      · exact .inl ⟨rfl, rfl⟩
    · cases hask
  · cases hask

/-! ## A wallet that meets the hypotheses -/

/-- 500 TFT. -/
def botBalance : Wallets := walletsRun toyHash [.chain 1000 1000, .report coin500 true false]
/-- The keys of two owners. -/
def botKeys : Keys := { seed := [], pairs := [((addrOf key1).str toyHash, key1), ((addrOf key2).str toyHash, key2)], primary := (addrOf key1).str toyHash }
/-- A wallet with both keys, 500 TFT and the right to mint. -/
def liveBots : World := { demoBots with sign := liveWorld.sign, keys := botKeys, addresses := .ok [(addrOf key1).str toyHash, (addrOf key2).str toyHash] }

theorem bots_keys : GoodKeys liveBots := by
  have hl : ∀ a k, liveBots.keys.lookup a = some k → (a = (addrOf key1).str toyHash ∧ k = key1) ∨ (a = (addrOf key2).str toyHash ∧ k = key2) := by
    intro a k h
    simp only [Keys.lookup, liveBots, botKeys, List.find?_cons] at h
    split at h
    · rename_i h2
      cases h; exact .inl ⟨(of_decide_eq_true h2).symm, rfl⟩
    · split at h
      · rename_i h2
        cases h; exact .inr ⟨(of_decide_eq_true h2).symm, rfl⟩
      · cases h
  refine ⟨?_, ?_, live_keys.sig⟩
  · intro a k h
    rcases hl a k h with ⟨rfl, rfl⟩ | ⟨rfl, rfl⟩
    · exact ⟨addrOf key1, by decide +kernel, rfl⟩
    · exact ⟨addrOf key2, by decide +kernel, rfl⟩
  · intro a k h
    rcases hl a k h with ⟨rfl, rfl⟩ | ⟨rfl, rfl⟩
    · exact (rfl : key1.hash.value.length = 32)
    · exact (rfl : key2.hash.value.length = 32)

theorem bots_offers : walletsSpendable botBalance = [coin500] := by decide +kernel
theorem key1_present : ¬ HasAddress toyHash .default ((addrOf key1).str toyHash) := by
  rintro ⟨u, h1, h2⟩
  have : (PublicKey.default.unlockhash toyHash).map (·.str toyHash) ≠ .ok ((addrOf key1).str toyHash) := by decide +kernel
  apply this
  rw [h1]; exact congrArg Except.ok h2

theorem bots_good : GoodBalance liveBots botBalance := by
  refine ⟨wellFiled_run toyHash toyHash_digest _, demoBots_sane, ?_⟩
  rw [bots_offers]
  intro co hco
  rw [List.mem_singleton.mp hco]
  exact ⟨by decide, key1_present⟩

theorem bots_refund (record : Int → Res (PublicKey × Int)) : GoodRefund { liveBots with record := record } botBalance .none .none := by
  refine ⟨fun _ => ⟨addrOf key1, show UnlockHash.fromJson toyHash (.str liveBots.keys.primary) = .ok (addrOf key1) by decide +kernel⟩, fun h => absurd rfl h, ?_⟩
  intro c h
  cases h with
  | given _ _ h => exact absurd rfl h
  | source _ h => exact absurd h no_single
  | multi _ _ _ h => exact absurd h no_single
  | primary u h hu =>
    have : u = addrOf key1 := by
      have e : UnlockHash.fromJson toyHash (.str liveBots.keys.primary) = .ok (addrOf key1) := by decide +kernel
      exact Except.ok.inj (hu.symm.trans e)
    subst this
    show HashFits (addrOf key1).hash
    decide +kernel

theorem bots_eligible (co : CoinOutput) (h : Eligible toyHash botBalance .none co) : co = coin500 := by
  have := eligible_spendable h
  rw [bots_offers] at this
  exact List.mem_singleton.mp this

/-- The wallet can pay up to 499.9 TFT and the miner fee. -/
theorem bots_pay (n : Nat) (h : n ≤ 499900000000) : CanPay liveBots botBalance botKeys n .none .none := by
  refine ⟨rfl, bots_good, ?_, ⟨rfl, by decide⟩, none_readable _ _, .inr (.inl (by rw [bots_offers]; decide)), ?_, bots_refund liveBots.record⟩
  · rw [bots_offers]
    intro co hco
    rw [List.mem_singleton.mp hco]
    exact key1_present
  · refine ⟨[coin500], by decide +kernel, by decide, ?_, ?_⟩
    · intro co hco
      rw [List.mem_singleton.mp hco]
      exact .personal (addrOf key1) (by decide +kernel) (by decide +kernel) trivial
    · have h1 : amount liveBots.fee = 100000000 := by decide +kernel
      have h2 : total [coin500] = 500000000000 := by decide +kernel
      rw [h1, h2]; omega

theorem bots_unlock (co : CoinOutput) (h : Eligible toyHash botBalance .none co) : Unlockable liveBots co.condition := by
  rw [bots_eligible co h]
  show heldKeys liveBots [addrOf key1] ≠ []
  decide +kernel

/-- All hypotheses of `C109_record_new_partial` hold of this wallet and the registration of a 3Bot with a name and an address for three months, so it is submitted. -/
example : ∃ t, (liveBots.recordNew toyIp 3 (some [.str "example".toList]) (some [.str "example.org".toList]) (some 0) .none .none).posted = [t] :=
  (C109_record_new_partial liveBots botBalance toyIp 3 (some [.str "example".toList]) (some [.str "example.org".toList]) (some 0) .none .none [⟨"example".toList⟩] [⟨.hostname, utf8 "example.org".toList⟩] botKeys key1 toyIp_lawful toyHash_digest
    bots_keys.filed bots_keys (by decide) (.inl (by simp)) ⟨by decide +kernel, by decide⟩ ⟨by decide +kernel, by decide⟩
    (fun l hl a ha x => by cases hl; rw [List.mem_singleton.mp ha]; simp) ⟨⟨_, _, rfl, by decide, rfl, by decide +kernel⟩, rfl⟩
    (bots_pay _ (by decide +kernel))).2 bots_unlock
/-- The same for the registration of an address. -/
example : ∃ t, (liveBots.addressRegister (.uh (addrOf key2)) .none .none).posted = [t] :=
  (C109_address_register_partial liveBots botBalance (.uh (addrOf key2)) .none .none botKeys key2 toyHash_digest bots_keys.filed bots_keys ⟨show botKeys.get? _ = _ by decide +kernel, rfl⟩
    (bots_pay _ (by decide))).2 bots_unlock
/-- The same for the update of a record. -/
example : ∃ t, (liveBots.recordUpdate toyIp 1 2 (some [.str "example".toList]) none none (some [.str "example.org".toList]) .none .none).posted = [t] :=
  (C109_record_update_partial liveBots botBalance toyIp 1 2 _ _ _ _ _ _ [⟨"example".toList⟩] [] [] [⟨.hostname, utf8 "example.org".toList⟩] key1 2000 1000 toyIp_lawful toyHash_digest
    bots_keys (by decide) (by decide) (.inl (by decide)) ⟨by decide +kernel, by decide⟩ ⟨rfl, by decide⟩ ⟨rfl, by decide⟩ ⟨by decide +kernel, by decide⟩
    (fun l hl => by cases hl) (fun l hl a ha x => by cases hl; rw [List.mem_singleton.mp ha]; simp) rfl rfl (.inl (by decide)) (show key1.hash.value.length = 32 from rfl)
    (bots_pay _ (by decide +kernel)) (by decide +kernel)).2 bots_unlock ⟨_, ⟨addrOf key1, by decide +kernel, rfl⟩, show botKeys.lookup _ ≠ none by decide +kernel⟩
/-- The same for the transfer of a name, as the wallet has both keys. -/
example : ∃ t, (liveBots.nameTransfer 1 2 (some [.str "example".toList]) .none .none).posted = [t] :=
  (C109_name_transfer_partial liveBots botBalance 1 2 _ _ _ [⟨"example".toList⟩] key1 key2 2000 2000 1000 toyHash_digest bots_keys (by decide) ⟨by decide +kernel, by decide⟩ (by simp)
    rfl rfl rfl (by decide) (show key1.hash.value.length = 32 from rfl) (show key2.hash.value.length = 32 from rfl)
    (by
      rintro a ⟨u, h1, rfl⟩ ⟨u', h2, h3⟩
      have e1 : key1.unlockhash toyHash = .ok (addrOf key1) := by decide +kernel
      have e2 : key2.unlockhash toyHash = .ok (addrOf key2) := by decide +kernel
      have g1 := Except.ok.inj (e1.symm.trans h1)
      have g2 := Except.ok.inj (e2.symm.trans h2)
      rw [← g1, ← g2] at h3
      exact absurd h3 (by decide +kernel))
    (bots_pay _ (by decide +kernel))).2 bots_unlock (by
      rintro k (rfl | rfl)
      · exact ⟨_, ⟨addrOf key1, by decide +kernel, rfl⟩, show botKeys.lookup _ ≠ none by decide +kernel⟩
      · exact ⟨_, ⟨addrOf key2, by decide +kernel, rfl⟩, show botKeys.lookup _ ≠ none by decide +kernel⟩)
/-- Minting: the wallet has the key for the mint condition. -/
example : ∃ t, (liveBots.definitionSet (List.replicate 8 1) (.uh (addrOf key2)) .none).posted = [t] := by
  obtain ⟨t, ⟨-, h⟩ | ⟨h, -⟩⟩ := C110_definition_set_partial liveBots (List.replicate 8 1) (.uh (addrOf key2)) .none (.unlockHash (addrOf key2)) (.unlockHash (addrOf key1)) (addrOf key2) []
    toyHash_digest bots_keys ⟨⟨rfl, by decide⟩, by decide +kernel⟩ rfl (by show HashFits _; decide +kernel) rfl (.inl rfl) rfl (by decide) rfl key1_present
  · exact ⟨t, h⟩
  · exact absurd (show heldKeys liveBots [addrOf key1] ≠ [] by decide +kernel) h
example : ∃ t, (liveBots.coinsNew (List.replicate 8 1) (.uh (addrOf key2)) (.int 5) .none .none).posted = [t] := by
  obtain ⟨t, ⟨-, h⟩ | ⟨h, -⟩⟩ := C110_coins_new_partial liveBots botBalance (List.replicate 8 1) (.uh (addrOf key2)) (.int 5) .none .none 5000000000 (.unlockHash (addrOf key2))
    (.unlockHash (addrOf key1)) [] toyHash_digest bots_keys ⟨⟨rfl, by decide⟩, by decide +kernel⟩ rfl (fun c h => by cases h) (by decide +kernel) (by decide) (by show HashFits _; decide +kernel)
    rfl (by decide) rfl key1_present
  · exact ⟨t, h⟩
  · exact absurd (show heldKeys liveBots [addrOf key1] ≠ [] by decide +kernel) h
/-- The same wallet without the second key. -/
def oneBot : World := { liveBots with keys := demoBots.keys }
/-- Without the keys it is returned. -/
example : (oneBot.nameTransfer 1 2 (some [.str "example".toList]) .none .none).posted.length = 0 ∧
    (oneBot.nameTransfer 1 2 (some [.str "example".toList]) .none .none).result.map (·.2) = .ok false := by decide +kernel

/-- A network whose mint condition names the owner of `key1` twice. -/
def mintTwice : World := { liveBots with mintCondition := .ok (.multiSig [addrOf key1, addrOf key1] 1) }

/-- **C110** (finding). If the mint condition names an owner twice of which the wallet has the key, minting raises `ValueError`, although one signature is all that is required. -/
theorem C110_owner_twice_false : ¬ ∀ (W : World) (nonce : Bytes) (r : Recipient) (p : Condition), GoodKeys W → W.mintCondition = .ok p → Unlockable W p →
    (∃ c, fromRecipient W.H r .none = .ok (.unlockHash c) ∧ c.type = 1) → ∃ t, Produces (W.definitionSet nonce r .none) t := by
  intro h
  obtain ⟨t, ht⟩ := h mintTwice [] (.uh (addrOf key2)) _ ⟨bots_keys.filed, bots_keys.full, bots_keys.sig⟩ rfl
    (by
      have : (1 : Int) ≤ (heldKeys mintTwice [addrOf key1, addrOf key1]).length := by decide +kernel
      simpa only [Unlockable, Condition.unwrap]) ⟨addrOf key2, rfl, rfl⟩
  have h1 : (mintTwice.definitionSet [] (.uh (addrOf key2)) .none).posted.length = 0 := by decide +kernel
  have h2 : (mintTwice.definitionSet [] (.uh (addrOf key2)) .none).result.map (·.2) = .error .valueError := by decide +kernel
  rcases ht with ht | ⟨b, ht⟩
  · rw [List.length_eq_zero_iff.mp h1] at ht
    cases ht
  · rw [ht] at h2
    cases h2

/-- A network where all 3Bots have the key `key1`. -/
def sameKey : World := { liveBots with record := fun _ => .ok (key1, 2000) }

/-- **C109 is false** of transfers between 3Bots with the same key: the wallet has all keys and can pay, but the transfer is not submitted. -/
theorem C109_same_key_false : ∃ (W : World) (w : Wallets) (names : Option (List NameArg)) (k : PublicKey), GoodKeys W ∧ CanPay W w W.keys (50 * 10^9) .none .none ∧
    Items 5 BotName.new names [⟨"example".toList⟩] ∧ (∀ i, W.record i = .ok (k, 2000)) ∧ W.chainTime = .ok 1000 ∧ FullKey k ∧
    (∃ a, HasAddress W.H k a ∧ W.keys.lookup a ≠ none) ∧ (∀ co, Eligible W.H w .none co → Unlockable W co.condition) ∧
    (W.nameTransfer 1 2 names .none .none).posted = [] ∧ (W.nameTransfer 1 2 names .none .none).result.map (·.2) = .ok false := by
  have hp := bots_pay (50 * 10^9) (by decide)
  refine ⟨sameKey, botBalance, some [.str "example".toList], key1, ⟨bots_keys.filed, bots_keys.full, bots_keys.sig⟩,
    ⟨rfl, ⟨hp.good.filed, hp.good.sane, hp.good.ordinary⟩, hp.ordinary, hp.fee, hp.source, hp.simple, hp.affordable, bots_refund _⟩,
    ⟨by decide +kernel, by decide⟩, fun _ => rfl, rfl, (show key1.hash.value.length = 32 from rfl),
    ⟨_, ⟨addrOf key1, by decide +kernel, rfl⟩, show botKeys.lookup _ ≠ none by decide +kernel⟩, ?_, ?_, by decide +kernel⟩
  · intro co h
    rw [bots_eligible co h]
    show heldKeys sameKey [addrOf key1] ≠ []
    decide +kernel
  · exact List.length_eq_zero_iff.mp (by decide +kernel)

end TF.Props
