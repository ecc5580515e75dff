import Verif.Spec.Asked
import Verif.Props.Wire
import Verif.Props.SignForeign
import Verif.Props.Client
import Verif.Props.Live
/-! # C113: a transaction asks exactly for the signatures it lacks -/
namespace TF.Props
open TF Spec Ask

theorem keyAddress_eq (H : Bytes → Bytes) {k : PublicKey} (hk : KeyFits k) : k.unlockhash H = .ok (keyAddress H k) := by
  obtain ⟨e, he⟩ := key_unlockhash H hk
  unfold PublicKey.unlockhash at he ⊢
  obtain ⟨d, hd, he⟩ := bind_ok he
  obtain ⟨x, hx, he⟩ := bind_ok he
  have hd' : d = Wire.key .sia k := Out.Writes.toRes (by have := writes_key k .sia; rwa [addIn, PublicKey.val, siaAdd_obj] at this) hd
  have hx' := Out.Writes.toRes (writes_siaSlice d) hx
  rw [hd]
  show (siaSliceBytes d).toRes >>= _ = _
  rw [hx]
  show Except.ok _ = _
  rw [hx', hd']; rfl

theorem str_keyAddress {H : Bytes → Bytes} (hH : Digest32 H) {u : UnlockHash} (hu : FullAddress u ∨ u.type = 0) (k : PublicKey) :
    u.str H = (keyAddress H k).str H ↔ u = keyAddress H k := by
  constructor
  · intro h
    rcases hu with hu | hu
    · exact str_inj hu (hH _) h
    · unfold UnlockHash.str at h
      have := (List.append_inj (List.append_assoc _ _ _ ▸ List.append_assoc _ _ _ ▸ h : toHex [u.type] ++ _ = toHex [1] ++ _) (by simp [toHex_length])).1
      rw [hu] at this
      exact absurd this (by decide)
  · rintro rfl; rfl

theorem mapM_ok_of {α β : Type} {f : α → Res β} {g : α → β} {l : List α} (h : ∀ x ∈ l, f x = .ok (g x)) : l.mapM f = .ok (l.map g) := by
  induction l with
  | nil => rfl
  | cons a l ih => rw [List.mapM_cons, h a (by simp), ih fun x hx => h x (by simp [hx])]; rfl

theorem requests_fitting {H : Bytes → Bytes} (hH : Digest32 H) {f : Fulfillment} {c : Condition} (h : Fitting f c) :
    f.requests H c = .ok ((askedFor H f c).map fun u => { owner := u }) := by
  obtain ⟨h1, h2, h3⟩ := h
  have one : ∀ k s u, (∀ k' ∈ holders (.single k s), KeyFits k') → (FullAddress u ∨ u.type = 0) →
      (do let me ← k.unlockhash H; return if u.str H = me.str H then [] else [{ owner := u }] : Res (List Request)) =
      .ok (([u].filter fun u => decide (u ∉ (holders (.single k s)).map (keyAddress H))).map fun u => { owner := u }) := by
    intro k s u hk hu
    rw [keyAddress_eq H (hk k (by simp [holders]))]
    simp only [bind, Except.bind, pure, Except.pure, str_keyAddress hH hu, holders, List.map_cons, List.map_nil, List.mem_singleton]
    by_cases e : u = keyAddress H k <;> simp [e]
  have many : ∀ (ps : List KeySig) (os : List UnlockHash), (∀ k' ∈ holders (.multi ps), KeyFits k') → (∀ u ∈ os, FullAddress u ∨ u.type = 0) →
      (do let signed ← ps.mapM fun p => do return (← p.key.unlockhash H).str H
          return (os.filter fun u => !signed.contains (u.str H)).map fun u => { owner := u } : Res (List Request)) =
      .ok ((os.filter fun u => decide (u ∉ (holders (.multi ps)).map (keyAddress H))).map fun u => { owner := u }) := by
    intro ps os hk hu
    rw [mapM_ok_of (g := fun p => (keyAddress H p.key).str H) fun p hp => by rw [keyAddress_eq H (hk p.key (by simp only [holders]; exact List.mem_map_of_mem hp))]; rfl]
    simp only [bind, Except.bind, pure, Except.pure]
    congr 2
    apply List.filter_congr
    intro u hu'
    simp only [holders, List.map_map, List.contains_eq_mem, List.mem_map, Function.comp]
    rw [← decide_not]
    apply decide_eq_decide.2
    constructor
    · rintro h ⟨p, hp, e⟩; exact h ⟨p, hp, by rw [e]⟩
    · rintro h ⟨p, hp, e⟩; exact h ⟨p, hp, ((str_keyAddress hH (hu u hu') _).1 e.symm).symm⟩
  match f, c, h1 with
  | .single k s, .nil, _ => exact one k s _ h2 (h3 _ (by simp [owners]))
  | .single k s, .unlockHash u, _ => exact one k s u h2 (h3 _ (by simp [owners]))
  | .single k s, .lockTime _ .nil, _ => exact one k s _ h2 (h3 _ (by simp [owners]))
  | .single k s, .lockTime _ (.unlockHash u), _ => exact one k s u h2 (h3 _ (by simp [owners]))
  | .multi ps, .multiSig os _, _ => exact many ps os h2 h3
  | .multi ps, .lockTime _ (.multiSig os _), _ => exact many ps os h2 h3
  | .swap k s x, .atomicSwap a b _ _, _ =>
    simp only [Fulfillment.requests, keyAddress_eq H (h2 k (by simp [holders])), bind, Except.bind, pure, Except.pure, askedFor, owners]
    congr 2
    apply List.filter_congr
    intro u hu
    have := str_keyAddress hH (h3 u hu) k
    simp only [holders, List.map_cons, List.map_nil, List.mem_singleton, bne, beq_eq_decide, this, decide_not]

theorem coinRequests_asked {H : Bytes → Bytes} (hH : Digest32 H) : ∀ (l : List CoinInput) (k : Nat),
    (∀ ci ∈ l, ∀ co, ci.parent = some co → Fitting ci.fulfillment co.condition) →
    ∃ rs, coinRequests H k l = .ok rs ∧ (∀ r ∈ rs, r.req.signed = false) ∧ rs.map (fun r => (r.target, r.req.owner)) =
      ((l.zipIdx k).flatMap fun (ci, i) => (ci.parent.map fun co => (i, ci.fulfillment, co.condition)).toList).flatMap
        fun (i, f, c) => (askedFor H f c).map ((SigTarget.coin i, ·))
  | [], _, _ => ⟨[], rfl, by simp, rfl⟩
  | ci :: l, k, h => by
    obtain ⟨rs, h1, h2, h3⟩ := coinRequests_asked hH l (k + 1) fun x hx => h x (by simp [hx])
    unfold coinRequests
    rw [h1]
    cases hp : ci.parent with
    | none =>
      refine ⟨rs, by simp [CoinInput.requests, hp, bind, Except.bind, pure, Except.pure], h2, ?_⟩
      rw [List.zipIdx_cons, List.flatMap_cons]
      simp only [hp, Option.map_none, Option.toList_none, List.nil_append]
      exact h3
    | some co =>
      have := requests_fitting hH (h ci (by simp) co hp)
      refine ⟨(askedFor H ci.fulfillment co.condition).map (fun u => ⟨.coin k, { owner := u }⟩) ++ rs,
        by simp [CoinInput.requests, hp, this, bind, Except.bind, pure, Except.pure, Function.comp_def], ?_, ?_⟩
      · intro r hr
        rcases List.mem_append.1 hr with hr | hr
        · obtain ⟨u, -, rfl⟩ := List.mem_map.1 hr; rfl
        · exact h2 r hr
      · rw [List.zipIdx_cons, List.flatMap_cons, List.map_append, h3, List.flatMap_append]
        simp [hp, Function.comp_def]
theorem stakeRequests_asked {H : Bytes → Bytes} (hH : Digest32 H) : ∀ (l : List StakeInput) (k : Nat),
    (∀ ci ∈ l, Fitting ci.fulfillment ci.parent.condition) →
    ∃ rs, stakeRequests H k l = .ok rs ∧ (∀ r ∈ rs, r.req.signed = false) ∧ rs.map (fun r => (r.target, r.req.owner)) =
      ((l.zipIdx k).map fun (si, i) => (i, si.fulfillment, si.parent.condition)).flatMap fun (i, f, c) => (askedFor H f c).map ((SigTarget.stake i, ·))
  | [], _, _ => ⟨[], rfl, by simp, rfl⟩
  | ci :: l, k, h => by
    obtain ⟨rs, h1, h2, h3⟩ := stakeRequests_asked hH l (k + 1) fun x hx => h x (by simp [hx])
    unfold stakeRequests
    rw [h1]
    have := requests_fitting hH (h ci (by simp))
    refine ⟨(askedFor H ci.fulfillment ci.parent.condition).map (fun u => ⟨.stake k, { owner := u }⟩) ++ rs,
      by simp [StakeInput.requests, this, bind, Except.bind, pure, Except.pure, Function.comp_def], ?_, ?_⟩
    · intro r hr
      rcases List.mem_append.1 hr with hr | hr
      · obtain ⟨u, -, rfl⟩ := List.mem_map.1 hr; rfl
      · exact h2 r hr
    · rw [List.zipIdx_cons, List.map_cons, List.flatMap_cons, List.map_append, h3]
      simp [Function.comp_def]

theorem selfRequest_asked {H : Bytes → Bytes} {k : Option PublicKey} (s : Option Signature) {spec : Bytes} {w : String} (hw : spec = Wire.ascii w.toList)
    (hk : ∀ x, k = some x → KeyFits x) :
    ∃ rs, selfRequest H k s spec = .ok rs ∧ (∀ r ∈ rs, r.req.signed = false) ∧ rs.map (fun r => (r.target, r.req.owner)) =
      if s = none then k.toList.map fun k => (SigTarget.self (Wire.ascii w.toList), keyAddress H k) else [] := by
  cases k with
  | none => exact ⟨[], by simp [selfRequest], by simp, by simp⟩
  | some k =>
    cases s with
    | some s => exact ⟨[], rfl, by simp, rfl⟩
    | none =>
      refine ⟨[⟨.self spec, { owner := keyAddress H k }⟩], ?_, by simp, by simp [hw]⟩
      simp [selfRequest, keyAddress_eq H (hk k rfl), bind, Except.bind, pure, Except.pure]

theorem extraRequests_asked {H : Bytes → Bytes} (hH : Digest32 H) (t : Tx) (h : ∀ x ∈ minting t, ∃ f, x.1 = some f ∧ Fitting f x.2)
    (hp : ∀ x ∈ parties t, ∀ k, x.2.1 = some k → KeyFits k) :
    ∃ rs, t.extraRequests H = .ok rs ∧ (∀ r ∈ rs, r.req.signed = false) ∧ rs.map (fun r => (r.target, r.req.owner)) =
      ((minting t).toList.flatMap fun (f, c) => (f.toList.flatMap fun f => askedFor H f c).map ((SigTarget.mint, ·))) ++
      (parties t).flatMap fun (w, k, s) => if s = none then k.toList.map fun k => (.self (Wire.ascii w.toList), keyAddress H k) else [] := by
  have hm : ∀ (f : Option Fulfillment) (p : Option Condition), (∀ x ∈ p.map (f, ·), ∃ f, x.1 = some f ∧ Fitting f x.2) →
      ∃ rs, mintRequests H f p = .ok rs ∧ (∀ r ∈ rs, r.req.signed = false) ∧ rs.map (fun r => (r.target, r.req.owner)) =
        (p.map (f, ·)).toList.flatMap fun (f, c) => (f.toList.flatMap fun f => askedFor H f c).map ((SigTarget.mint, ·)) := by
    intro f p h
    cases p with
    | none => exact ⟨[], rfl, by simp, rfl⟩
    | some c =>
      obtain ⟨f', e, hf⟩ := h (f, c) rfl
      simp only at e
      subst e
      refine ⟨(askedFor H f' c).map (fun u => ⟨.mint, { owner := u }⟩), by simp [mintRequests, requests_fitting hH hf, bind, Except.bind, pure, Except.pure, Function.comp_def],
        ?_, by simp [Function.comp_def]⟩
      intro r hr
      obtain ⟨u, -, rfl⟩ := List.mem_map.1 hr; rfl
  have hs : specSender = Wire.ascii "sender".toList := by decide
  have hr : specReceiver = Wire.ascii "receiver".toList := by decide
  have hg : specRegistration = Wire.ascii "registration".toList := by decide
  cases t with
  | v1 t => exact ⟨[], rfl, by simp, rfl⟩
  | v208 t => exact ⟨[], rfl, by simp, rfl⟩
  | v209 t => exact ⟨[], rfl, by simp, rfl⟩
  | v128 t =>
    obtain ⟨rs, h1, h2, h3⟩ := hm t.mintFulfillment t.parent h
    exact ⟨rs, h1, h2, by rw [h3]; simp only [parties, minting, Option.toList_none, List.flatMap_nil, List.nil_append, List.flatMap_cons, List.append_nil]⟩
  | v129 t =>
    obtain ⟨rs, h1, h2, h3⟩ := hm t.mintFulfillment t.parent h
    exact ⟨rs, h1, h2, by rw [h3]; simp only [parties, minting, Option.toList_none, List.flatMap_nil, List.nil_append, List.flatMap_cons, List.append_nil]⟩
  | v144 t =>
    obtain ⟨rs, h1, h2, h3⟩ := selfRequest_asked (H := H) (k := t.key) t.sig hs (hp _ (List.mem_singleton.2 rfl))
    exact ⟨rs, h1, h2, by rw [h3]; simp only [parties, minting, Option.toList_none, List.flatMap_nil, List.nil_append, List.flatMap_cons, List.append_nil]⟩
  | v145 t =>
    obtain ⟨rs, h1, h2, h3⟩ := selfRequest_asked (H := H) (k := t.parentKey) t.sig hs (hp _ (List.mem_singleton.2 rfl))
    exact ⟨rs, h1, h2, by rw [h3]; simp only [parties, minting, Option.toList_none, List.flatMap_nil, List.nil_append, List.flatMap_cons, List.append_nil]⟩
  | v210 t =>
    obtain ⟨rs, h1, h2, h3⟩ := selfRequest_asked (H := H) (k := t.key) t.sig hg (hp _ (List.mem_singleton.2 rfl))
    exact ⟨rs, h1, h2, by rw [h3]; simp only [parties, minting, Option.toList_none, List.flatMap_nil, List.nil_append, List.flatMap_cons, List.append_nil]⟩
  | v146 t =>
    obtain ⟨rs, h1, h2, h3⟩ := selfRequest_asked (H := H) (k := t.senderKey) t.senderSig hs (hp _ (.head _))
    obtain ⟨rs', h1', h2', h3'⟩ := selfRequest_asked (H := H) (k := t.receiverKey) t.receiverSig hr (hp _ (.tail _ (.head _)))
    refine ⟨rs ++ rs', by rw [Tx.extraRequests, h1, h1']; rfl, ?_, by rw [List.map_append, h3, h3']; simp only [parties, minting, Option.toList_none, List.flatMap_nil, List.nil_append, List.flatMap_cons, List.append_nil]⟩
    intro r hr
    rcases List.mem_append.1 hr with hr | hr
    · exact h2 r hr
    · exact h2' r hr

/-- C113: who is asked to sign for what, in order, and nobody else. -/
theorem C113_requests (H : Bytes → Bytes) (hH : Digest32 H) (t : Tx) (ht : Askable t) :
    ∃ rs, t.requests H = .ok rs ∧ (∀ r ∈ rs, r.req.signed = false) ∧ rs.map (fun r => (r.target, r.req.owner)) = Ask.asked H t := by
  obtain ⟨h1, h2, h3, h4, h5⟩ := ht
  cases hc : t.coinInputs with
  | none => exact absurd hc h1
  | some l =>
    have hcs : coinsOf t = l := by simp [coinsOf, hc]
    obtain ⟨r1, a1, b1, c1⟩ := coinRequests_asked hH l 0 (by
      intro ci hci co hp
      obtain ⟨i, hi, e⟩ := List.getElem_of_mem hci
      refine h2 (i, ci.fulfillment, co.condition) ?_
      unfold knownCoins
      rw [hcs, List.mem_flatMap]
      refine ⟨(ci, i), ?_, by simp [hp]⟩
      rw [List.mem_zipIdx_iff_getElem?, ← e]
      simp [hi])
    obtain ⟨r2, a2, b2, c2⟩ := stakeRequests_asked hH t.stakeInputs 0 (by
      intro ci hci
      obtain ⟨i, hi, e⟩ := List.getElem_of_mem hci
      refine h3 (i, ci.fulfillment, ci.parent.condition) ?_
      unfold knownStakes
      rw [List.mem_map]
      refine ⟨(ci, i), ?_, rfl⟩
      rw [List.mem_zipIdx_iff_getElem?, ← e]
      simp [hi])
    obtain ⟨r3, a3, b3, c3⟩ := extraRequests_asked hH t h4 h5
    refine ⟨r1 ++ r2 ++ r3, by simp [Tx.requests, hc, a1, a2, a3, bind, Except.bind, pure, Except.pure], ?_, ?_⟩
    · intro r hr
      rcases List.mem_append.1 hr with hr | hr
      · rcases List.mem_append.1 hr with hr | hr
        · exact b1 r hr
        · exact b2 r hr
      · exact b3 r hr
    · rw [List.map_append, List.map_append, c1, c2, c3]
      unfold Ask.asked knownCoins knownStakes
      rw [hcs]
      simp only [List.append_assoc]

/-! ## Every signature is asked for until it is given -/

theorem key_str_inj {k p : PublicKey} (hk : FullKey k) (hp : FullKey p) (h : k.str = p.str) : k = p := by
  obtain ⟨a, x⟩ := k
  obtain ⟨b, y⟩ := p
  unfold PublicKey.str at h
  simp only [hash_str_full (h := x) hk, hash_str_full (h := y) hp] at h
  have hl : (toHex x.value).length = (toHex y.value).length := by
    rw [toHex_length, toHex_length]; exact congrArg (2 * ·) ((show x.value.length = 32 from hk).trans (show y.value.length = 32 from hp).symm)
  obtain ⟨h1, h2⟩ := List.append_inj' h (by simp [hl])
  have hs : a = b := by
    cases a <;> cases b <;> first | rfl | exact absurd h1 (by decide)
  obtain ⟨x⟩ := x
  obtain ⟨y⟩ := y
  have : x = y := toHex_inj (List.cons.inj h2).2
  rw [hs, this]

theorem add_asked {H : Bytes → Bytes} {f : Fulfillment} {c : Condition} {a : UnlockHash} {k : PublicKey} {b : Bytes} (hf : Fitting f c)
    (hn : Ordinary H f c) (ha : a ∈ askedFor H f c) (hk : FullKey k) (hka : keyAddress H k = a) (hb : b.length = 64) :
    (f.signatureAdd (.key k) (.bytes b)).2 = none ∧ askedFor H (f.signatureAdd (.key k) (.bytes b)).1 c = (askedFor H f c).filter fun u => decide (u ≠ a) := by
  have h64 := signature64 hb
  obtain ⟨ho, hu⟩ := List.mem_filter.1 ha
  simp only [decide_eq_true_eq] at hu
  cases f with
  | swap k0 s sec =>
    simp only [Fulfillment.signatureAdd, setKey, h64, true_and]
    have hall : askedFor H (.swap k0 s sec) c = owners c := by
      unfold askedFor
      rw [List.filter_eq_self]
      intro u hu'
      simp only [holders, List.map_cons, List.map_nil, List.mem_singleton, decide_eq_true_eq]
      rintro rfl
      exact hn hu'
    rw [hall]
    unfold askedFor
    apply List.filter_congr
    intro u _
    simp [holders, hka]
  | single k0 s =>
    simp only [Fulfillment.signatureAdd, setKey, h64, true_and]
    have hc : owners c = [a] := by
      have := hf.suits
      revert this ho
      cases c with
      | lockTime l c => cases c <;> simp [Suits, owners] <;> (intros; simp_all)
      | _ => simp [Suits, owners] <;> (intros; simp_all)
    unfold askedFor
    rw [hc]
    simp only [holders, List.map_cons, List.map_nil, hka, List.mem_singleton, not_true_eq_false, decide_false, Bool.false_eq_true, not_false_eq_true,
      List.filter_cons_of_neg, List.filter_nil, List.filter_filter]
    symm
    rw [List.filter_eq_nil_iff]
    intro x hx; simp at hx; simp [hx]
  | multi ps =>
    have hnone : ps.any (fun p => p.key.str == k.str) = false := by
      rw [List.any_eq_false]
      intro p hp e
      simp only [beq_iff_eq] at e
      have hm : p.key ∈ holders (.multi ps) := List.mem_map_of_mem hp
      have := key_str_inj (hn p hp) hk e
      exact hu (by rw [← hka, ← this]; exact List.mem_map_of_mem hm)
    have hadd : addPair ps (.key k) (.bytes b) = .ok (ps ++ [⟨k, ⟨b, false⟩⟩]) := by
      simp [addPair, hnone, setKey, h64, bind, Except.bind, pure, Except.pure]
    simp only [Fulfillment.signatureAdd, hadd, true_and]
    unfold askedFor
    rw [List.filter_filter]
    apply List.filter_congr
    intro u _
    rw [← Bool.decide_and]
    apply decide_eq_decide.2
    simp only [holders, List.map_append, List.map_cons, List.map_nil, hka, List.mem_append, List.mem_singleton, not_or]
    exact ⟨fun ⟨x, y⟩ => ⟨y, x⟩, fun ⟨x, y⟩ => ⟨y, x⟩⟩

/-- Answering one request among those numbered by `tag` removes exactly that one. -/
theorem asked_set {α : Type} (g : α → List UnlockHash) (tag : Nat → SigTarget) (htag : ∀ i j, tag i = tag j → i = j) (a : UnlockHash) :
    ∀ (l : List α) (n i : Nat) (x y : α), l[i]? = some x → g y = (g x).filter (fun u => decide (u ≠ a)) →
      ((l.set i y).zipIdx n).flatMap (fun (x, j) => (g x).map ((tag j, ·))) =
      ((l.zipIdx n).flatMap (fun (x, j) => (g x).map ((tag j, ·)))).filter fun z => decide (z ≠ (tag (n + i), a))
  | [], _, _, _, _, h, _ => by simp at h
  | w :: l, n, 0, x, y, h, hy => by
    simp only [List.getElem?_cons_zero, Option.some.injEq] at h
    subst h
    simp only [List.set_cons_zero, List.zipIdx_cons, List.flatMap_cons, List.filter_append, hy]
    congr 1
    · rw [List.filter_map]
      congr 1
      apply List.filter_congr
      intro u _
      simp
    · symm
      rw [List.filter_eq_self]
      rintro ⟨t, u⟩ hz
      rw [List.mem_flatMap] at hz
      obtain ⟨⟨v, j⟩, hj, hz⟩ := hz
      obtain ⟨_, _, e⟩ := List.mem_map.1 hz
      have := (List.mem_zipIdx_iff_le_and_getElem?_sub.1 hj).1
      simp only [Prod.mk.injEq] at e
      simp only [ne_eq, Prod.mk.injEq, decide_eq_true_eq, not_and]
      intro e2
      rw [← e.1] at e2
      have := htag _ _ e2
      simp at *; omega
  | w :: l, n, i + 1, x, y, h, hy => by
    have := asked_set g tag htag a l (n + 1) i x y (by simpa using h) hy
    simp only [List.set_cons_succ, List.zipIdx_cons, List.flatMap_cons, List.filter_append, this]
    rw [show n + 1 + i = n + (i + 1) by omega]
    congr 1
    symm
    rw [List.filter_eq_self]
    rintro ⟨t, u⟩ hz
    obtain ⟨_, _, e⟩ := List.mem_map.1 hz
    simp only [Prod.mk.injEq] at e
    simp only [ne_eq, Prod.mk.injEq, decide_eq_true_eq, not_and]
    intro e2
    rw [← e.1] at e2
    have := htag _ _ e2
    omega

/-- Those asked for a coin input. -/
def coinAsked (H : Bytes → Bytes) (ci : CoinInput) : List UnlockHash := match ci.parent with
  | none => []
  | some co => askedFor H ci.fulfillment co.condition
@[inherit_doc coinAsked] def stakeAsked (H : Bytes → Bytes) (si : StakeInput) : List UnlockHash := askedFor H si.fulfillment si.parent.condition

theorem coins_asked (H : Bytes → Bytes) (t : Tx) : ((knownCoins t).flatMap fun (i, f, c) => (askedFor H f c).map ((SigTarget.coin i, ·))) =
    (coinsOf t).zipIdx.flatMap fun (ci, i) => (coinAsked H ci).map ((SigTarget.coin i, ·)) := by
  unfold knownCoins
  rw [List.flatMap_assoc]
  apply List.flatMap_congr
  rintro ⟨ci, i⟩ _
  cases h : ci.parent <;> simp [coinAsked, h]
theorem stakes_asked (H : Bytes → Bytes) (t : Tx) : ((knownStakes t).flatMap fun (i, f, c) => (askedFor H f c).map ((SigTarget.stake i, ·))) =
    t.stakeInputs.zipIdx.flatMap fun (ci, i) => (stakeAsked H ci).map ((SigTarget.stake i, ·)) := by
  unfold knownStakes
  rw [List.flatMap_map]
  rfl

theorem mem_zip_flat {α β : Type} {g : α → List β} {tag : Nat → SigTarget} (htag : ∀ i j, tag i = tag j → i = j) {l : List α} {i : Nat} {a : β}
    (h : (tag i, a) ∈ l.zipIdx.flatMap fun (x, j) => (g x).map ((tag j, ·))) : ∃ x, l[i]? = some x ∧ a ∈ g x := by
  obtain ⟨⟨x, j⟩, hj, hz⟩ := List.mem_flatMap.1 h
  obtain ⟨u, hu, e⟩ := List.mem_map.1 hz
  simp only [Prod.mk.injEq] at e
  obtain ⟨e1, rfl⟩ := e
  have := htag _ _ e1
  subst this
  exact ⟨x, List.mem_zipIdx_iff_getElem?.1 hj, hu⟩

theorem mem_knownCoins {t : Tx} {i : Nat} {ci : CoinInput} {co : CoinOutput} (h : (coinsOf t)[i]? = some ci) (hp : ci.parent = some co) :
    (i, ci.fulfillment, co.condition) ∈ knownCoins t := by
  unfold knownCoins
  rw [List.mem_flatMap]
  exact ⟨(ci, i), List.mem_zipIdx_iff_getElem?.2 h, by simp [hp]⟩

/-- What is asked besides the signatures of coin inputs. -/
def otherAsked (H : Bytes → Bytes) (t : Tx) : List (SigTarget × UnlockHash) :=
  ((minting t).toList.flatMap fun (f, c) => (f.toList.flatMap fun f => askedFor H f c).map ((.mint, ·))) ++
  (parties t).flatMap fun (w, k, s) => if s = none then k.toList.map fun k => (.self (Wire.ascii w.toList), keyAddress H k) else []
theorem asked_parts (H : Bytes → Bytes) (t : Tx) : Ask.asked H t =
    ((coinsOf t).zipIdx.flatMap fun (ci, i) => (coinAsked H ci).map ((SigTarget.coin i, ·))) ++
    (t.stakeInputs.zipIdx.flatMap fun (ci, i) => (stakeAsked H ci).map ((SigTarget.stake i, ·))) ++ otherAsked H t := by
  rw [← coins_asked, ← stakes_asked]
  unfold Ask.asked otherAsked
  simp only [List.append_assoc]

theorem tags_coin {H : Bytes → Bytes} {l : List CoinInput} {z : SigTarget × UnlockHash}
    (h : z ∈ l.zipIdx.flatMap fun (ci, i) => (coinAsked H ci).map ((SigTarget.coin i, ·))) : ∃ i, z.1 = .coin i := by
  obtain ⟨⟨x, j⟩, hj, hz⟩ := List.mem_flatMap.1 h
  obtain ⟨u, hu, rfl⟩ := List.mem_map.1 hz
  exact ⟨j, rfl⟩
theorem tags_stake {H : Bytes → Bytes} {l : List StakeInput} {z : SigTarget × UnlockHash}
    (h : z ∈ l.zipIdx.flatMap fun (ci, i) => (stakeAsked H ci).map ((SigTarget.stake i, ·))) : ∃ i, z.1 = .stake i := by
  obtain ⟨⟨x, j⟩, hj, hz⟩ := List.mem_flatMap.1 h
  obtain ⟨u, hu, rfl⟩ := List.mem_map.1 hz
  exact ⟨j, rfl⟩
theorem tags_other {H : Bytes → Bytes} {t : Tx} {z : SigTarget × UnlockHash} (h : z ∈ otherAsked H t) : z.1 = .mint ∨ ∃ w, z.1 = .self w := by
  rcases List.mem_append.1 h with h | h
  · obtain ⟨⟨f, c⟩, hj, hz⟩ := List.mem_flatMap.1 h
    obtain ⟨u, hu, rfl⟩ := List.mem_map.1 hz
    exact .inl rfl
  · obtain ⟨⟨w, k, s⟩, hj, hz⟩ := List.mem_flatMap.1 h
    simp only at hz
    split at hz
    · obtain ⟨u, hu, rfl⟩ := List.mem_map.1 hz
      exact .inr ⟨_, rfl⟩
    · simp at hz

theorem filter_other {l : List (SigTarget × UnlockHash)} {z : SigTarget × UnlockHash} (h : ∀ x ∈ l, x.1 ≠ z.1) : l.filter (fun x => decide (x ≠ z)) = l := by
  rw [List.filter_eq_self]
  intro x hx
  simp only [decide_eq_true_eq]
  rintro rfl
  exact h x hx rfl

/-- The same coin inputs but for one. -/
theorem answered_coin {H : Bytes → Bytes} {t t' : Tx} {i : Nat} {ci ci' : CoinInput} {a : UnlockHash} (hi : (coinsOf t)[i]? = some ci)
    (hg : coinAsked H ci' = (coinAsked H ci).filter fun u => decide (u ≠ a)) (h1 : coinsOf t' = (coinsOf t).set i ci') (h2 : t'.stakeInputs = t.stakeInputs)
    (h3 : otherAsked H t' = otherAsked H t) : Ask.asked H t' = (Ask.asked H t).filter fun x => decide (x ≠ (.coin i, a)) := by
  rw [asked_parts, asked_parts, h1, h2, h3, List.filter_append, List.filter_append,
    asked_set (coinAsked H) .coin (fun _ _ e => by injection e) a (coinsOf t) 0 i ci ci' hi hg, Nat.zero_add]
  congr 1
  · congr 1
    refine (filter_other ?_).symm
    intro x hx
    obtain ⟨j, e⟩ := tags_stake hx
    rw [e]; simp
  · refine (filter_other ?_).symm
    intro x hx
    rcases tags_other hx with e | ⟨w, e⟩ <;> (rw [e]; simp)

/-- The same for everything but coin inputs. -/
theorem answered_stake {H : Bytes → Bytes} {t t' : Tx} {i : Nat} {ci ci' : StakeInput} {a : UnlockHash} (hi : t.stakeInputs[i]? = some ci)
    (hg : stakeAsked H ci' = (stakeAsked H ci).filter fun u => decide (u ≠ a)) (h1 : coinsOf t' = coinsOf t) (h2 : t'.stakeInputs = t.stakeInputs.set i ci')
    (h3 : otherAsked H t' = otherAsked H t) : Ask.asked H t' = (Ask.asked H t).filter fun x => decide (x ≠ (.stake i, a)) := by
  rw [asked_parts, asked_parts, h1, h2, h3, List.filter_append, List.filter_append,
    asked_set (stakeAsked H) .stake (fun _ _ e => by injection e) a t.stakeInputs 0 i ci ci' hi hg, Nat.zero_add]
  congr 1
  · congr 1
    refine (filter_other ?_).symm
    intro x hx
    obtain ⟨j, e⟩ := tags_coin hx
    rw [e]; simp
  · refine (filter_other ?_).symm
    intro x hx
    rcases tags_other hx with e | ⟨w, e⟩ <;> (rw [e]; simp)
theorem answered_other {H : Bytes → Bytes} {t t' : Tx} {z : SigTarget × UnlockHash} (hz : z.1 = .mint ∨ ∃ w, z.1 = .self w) (h1 : coinsOf t' = coinsOf t)
    (h2 : t'.stakeInputs = t.stakeInputs) (h3 : otherAsked H t' = (otherAsked H t).filter fun x => decide (x ≠ z)) :
    Ask.asked H t' = (Ask.asked H t).filter fun x => decide (x ≠ z) := by
  rw [asked_parts, asked_parts, h1, h2, h3, List.filter_append, List.filter_append]
  congr 1
  congr 1
  · refine (filter_other ?_).symm
    intro x hx
    obtain ⟨j, e⟩ := tags_coin hx
    rw [e]; rcases hz with hz | ⟨w, hz⟩ <;> simp [hz]
  · refine (filter_other ?_).symm
    intro x hx
    obtain ⟨j, e⟩ := tags_stake hx
    rw [e]; rcases hz with hz | ⟨w, hz⟩ <;> simp [hz]

theorem sign_coin_asked {H : Bytes → Bytes} {ci : CoinInput} {a : UnlockHash} {k : PublicKey} {b : Bytes} 
    (hf : ∀ co, ci.parent = some co → Fitting ci.fulfillment co.condition ∧ Ordinary H ci.fulfillment co.condition) (ha : a ∈ coinAsked H ci) (hk : FullKey k)
    (hka : keyAddress H k = a) (hb : b.length = 64) : (ci.sign (.key k) (.bytes b)).2 = none ∧
      coinAsked H (ci.sign (.key k) (.bytes b)).1 = (coinAsked H ci).filter fun u => decide (u ≠ a) := by
  unfold coinAsked at ha ⊢
  cases hp : ci.parent with
  | none => simp [hp] at ha
  | some co =>
    simp only [hp] at ha
    obtain ⟨h1, h2⟩ := hf co hp
    obtain ⟨h3, h4⟩ := add_asked h1 h2 ha hk hka hb
    refine ⟨h3, ?_⟩
    simp only [CoinInput.sign, hp]
    exact h4

/-- What is asked of a party. -/
def partyAsked (H : Bytes → Bytes) (w : String) (k : Option PublicKey) (s : Option Signature) : List (SigTarget × UnlockHash) :=
  if s = none then k.toList.map fun k => (.self (Wire.ascii w.toList), keyAddress H k) else []
theorem mem_partyAsked {H : Bytes → Bytes} {w : String} {k : Option PublicKey} {s : Option Signature} {z : SigTarget} {a : UnlockHash}
    (h : (z, a) ∈ partyAsked H w k s) : z = .self (Wire.ascii w.toList) ∧ ∃ e, k = some e ∧ s = none ∧ a = keyAddress H e := by
  unfold partyAsked at h
  split at h
  · cases k with
    | none => simp at h
    | some e =>
      rename_i hs
      have h := List.mem_singleton.1 h
      exact ⟨congrArg Prod.fst h, e, rfl, hs, congrArg Prod.snd h⟩
  · simp at h
theorem party_done {H : Bytes → Bytes} {w : String} {k : Option PublicKey} {s : Option Signature} {x : Signature} {e : PublicKey} {a : UnlockHash} (h1 : k = some e)
    (h3 : a = keyAddress H e) :
    (partyAsked H w k s).filter (fun z => decide (z ≠ (.self (Wire.ascii w.toList), a))) = partyAsked H w k (some x) := by
  subst h1
  have : partyAsked H w (some e) (some x) = [] := rfl
  rw [this, List.filter_eq_nil_iff]
  rintro ⟨z, u⟩ hz
  obtain ⟨e1, e', e2, -, e3⟩ := mem_partyAsked hz
  cases e2
  simp [e1, e3, h3]

/-- C113: a request fulfilled by the key of the asked address with a signature is not asked any more, and all others still are. -/
theorem C113_answered_partial (H : Bytes → Bytes) (t : Tx) (ht : Askable t) (ho : ∀ x ∈ knownCoins t ++ knownStakes t, Ordinary H x.2.1 x.2.2)
    (hm : ∀ x ∈ minting t, ∀ f, x.1 = some f → Ordinary H f x.2)
    (hp : ∀ x r, t = .v146 x → x.receiverKey = some r → keyAddress H (x.senderKey.getD .default) ≠ keyAddress H r)
    (tgt : SigTarget) (a : UnlockHash) (ha : (tgt, a) ∈ Ask.asked H t) (k : PublicKey) (hk : FullKey k) (hka : keyAddress H k = a) (b : Bytes) (hb : b.length = 64) :
    ∃ t', ({ owner := a } : Request).fulfillCb H (fun t k s => t.sign H tgt k s) t (.key k) (.bytes b) = (({ owner := a, signed := true }, t'), none) ∧
      Ask.asked H t' = (Ask.asked H t).filter fun x => decide (x ≠ (tgt, a)) := by
  suffices h : (t.sign H tgt (.key k) (.bytes b)).2 = none ∧ Ask.asked H (t.sign H tgt (.key k) (.bytes b)).1 = (Ask.asked H t).filter fun x => decide (x ≠ (tgt, a)) by
    refine ⟨(t.sign H tgt (.key k) (.bytes b)).1, ?_, h.2⟩
    have hkf : KeyFits k := Nat.le_of_eq hk
    simp only [Request.fulfillCb, keyAddress_eq H hkf, hka, ne_eq, not_true_eq_false, and_false, if_false, Bool.false_eq_true]
    generalize t.sign H tgt (.key k) (.bytes b) = r at h
    obtain ⟨r1, r2⟩ := r
    simp only at h
    rw [h.1]
  have h64 := signature64 hb
  have h64' : setTxSignature (.bytes b) = .ok (some ⟨b, true⟩) := by
    unfold setSignature at h64; unfold setTxSignature
    obtain ⟨s, hs, e⟩ := bind_ok h64
    have := sigNew_bytes hs
    simp only [Signature.new] at hs ⊢
    obtain ⟨d, hd, e'⟩ := bind_ok hs
    rw [hd]
    cases e'
    simp only at this
    rw [← this]; rfl
  have hkf : KeyFits k := Nat.le_of_eq hk
  have hself : ∀ (e : PublicKey), KeyFits e → a = keyAddress H e → selfSign H (some e) (.key k) (.bytes b) = .ok (some ⟨b, true⟩) := by
    intro e he h
    simp [selfSign, keyAddress_eq H he, keyAddress_eq H hkf, hka, ← h, h64', bind, Except.bind]
  rw [asked_parts] at ha
  rcases List.mem_append.1 ha with ha | ha
  · rcases List.mem_append.1 ha with ha | ha
    · obtain ⟨i, hi⟩ := tags_coin ha
      simp only at hi
      subst hi
      obtain ⟨ci, hc, hg⟩ := mem_zip_flat (fun _ _ e => by injection e) ha
      obtain ⟨h1, h2⟩ := sign_coin_asked (H := H) (ci := ci) (a := a) (k := k) (b := b)
        (fun co hp => ⟨ht.coins _ (mem_knownCoins hc hp), ho _ (List.mem_append_left _ (mem_knownCoins hc hp))⟩) hg hk hka hb
      have hlist := ht.list
      cases t with
      | v128 t => simp [coinsOf, Tx.coinInputs] at hc
      | v129 t => simp [coinsOf, Tx.coinInputs] at hc
      | v209 t => simp [coinsOf, Tx.coinInputs] at hc
      | v146 t =>
        cases hl : t.coinInputs with
        | none => exact absurd hl hlist
        | some l =>
          have hc' : l[i]? = some ci := by simpa [coinsOf, Tx.coinInputs, hl] using hc
          simp only [Tx.sign, hl, modifyAt, hc', h1, true_and]
          exact answered_coin hc h2 (by simp [coinsOf, Tx.coinInputs, hl]) rfl rfl
      | v210 t =>
        cases hl : t.coinInputs with
        | none => exact absurd hl hlist
        | some l =>
          have hc' : l[i]? = some ci := by simpa [coinsOf, Tx.coinInputs, hl] using hc
          simp only [Tx.sign, hl, modifyAt, hc', h1, true_and]
          exact answered_coin hc h2 (by simp [coinsOf, Tx.coinInputs, hl]) rfl rfl
      | _ t =>
        have hc' : t.coinInputs[i]? = some ci := hc
        simp only [Tx.sign, modifyAt, hc', h1, true_and]
        exact answered_coin hc h2 rfl rfl rfl
    · obtain ⟨i, hi⟩ := tags_stake ha
      simp only at hi
      subst hi
      obtain ⟨ci, hc, hg⟩ := mem_zip_flat (fun _ _ e => by injection e) ha
      have hmem : (i, ci.fulfillment, ci.parent.condition) ∈ knownStakes t :=
        List.mem_map.2 ⟨(ci, i), List.mem_zipIdx_iff_getElem?.2 hc, rfl⟩
      obtain ⟨h1, h2⟩ := add_asked (H := H) (k := k) (b := b) (ht.stakes _ hmem) (ho _ (List.mem_append_right _ hmem)) hg hk hka hb
      cases t with
      | v1 t =>
        have hc' : t.stakeInputs[i]? = some ci := hc
        simp only [Tx.sign, modifyAt, hc', StakeInput.sign, h1, true_and]
        exact answered_stake (ci' := { ci with fulfillment := (ci.fulfillment.signatureAdd (.key k) (.bytes b)).1 }) hc h2 rfl rfl rfl
      | _ t => simp [Tx.stakeInputs] at hc
  · have hmint : ∀ (f : Option Fulfillment) (p : Option Condition), minting t = p.map (f, ·) → parties t = [] → tgt = .mint ∧
        (signMint f (.key k) (.bytes b)).2 = none ∧
        ((p.map ((signMint f (.key k) (.bytes b)).1, ·)).toList.flatMap fun (f, c) => (f.toList.flatMap fun f => askedFor H f c).map ((SigTarget.mint, ·))) ++ [] =
        (otherAsked H t).filter fun x => decide (x ≠ (SigTarget.mint, a)) := by
      intro f p e1 e2
      have hmf := ht.mint
      unfold otherAsked at ha ⊢
      rw [e1, e2] at ha ⊢
      rw [e1] at hmf hm
      cases p with
      | none => simp at ha
      | some c =>
        obtain ⟨g, eg, hfit⟩ := hmf _ rfl
        simp only at eg
        subst eg
        simp only [Option.map_some, Option.toList_some, List.flatMap_cons, List.flatMap_nil, List.append_nil, List.mem_map, Prod.mk.injEq] at ha
        obtain ⟨u, hu, rfl, rfl⟩ := ha
        obtain ⟨h1, h2⟩ := add_asked (H := H) (k := k) (b := b) hfit (hm _ rfl _ rfl) hu hk hka hb
        refine ⟨rfl, h1, ?_⟩
        simp only [signMint, Option.map_some, Option.toList_some, List.flatMap_cons, List.flatMap_nil, List.append_nil, h2, List.filter_map]
        congr 1
        apply List.filter_congr
        intro x _
        simp
    have hz : tgt = .mint ∨ ∃ w, tgt = .self w := tags_other ha
    cases t with
    | v1 t => simp [otherAsked, minting, parties] at ha
    | v208 t => simp [otherAsked, minting, parties] at ha
    | v209 t => simp [otherAsked, minting, parties] at ha
    | v128 t =>
      obtain ⟨rfl, h1, h2⟩ := hmint t.mintFulfillment t.parent rfl rfl
      exact ⟨h1, answered_other (.inl rfl) rfl rfl h2⟩
    | v129 t =>
      obtain ⟨rfl, h1, h2⟩ := hmint t.mintFulfillment t.parent rfl rfl
      exact ⟨h1, answered_other (.inl rfl) rfl rfl h2⟩
    | v144 t =>
      have ho' : ∀ s, otherAsked H (.v144 { t with sig := s }) = partyAsked H "sender" t.key s := fun s => by simp only [otherAsked, parties, minting, Option.toList_none, List.flatMap_nil, List.nil_append, List.flatMap_cons, List.append_nil]; rfl
      obtain ⟨rfl, e, h1, h2, h3⟩ := mem_partyAsked (ho' t.sig ▸ ha)
      have : selfSign H t.key (.key k) (.bytes b) = .ok (some ⟨b, true⟩) := by rw [h1]; exact hself e (ht.parties _ (.head _) e h1) h3
      simp only [Tx.sign, this, true_and]
      refine answered_other (.inr ⟨_, rfl⟩) rfl rfl ?_
      rw [show otherAsked H (.v144 t) = _ from ho' t.sig]
      exact (ho' (some ⟨b, true⟩)).trans (party_done h1 h3).symm
    | v145 t =>
      have ho' : ∀ s, otherAsked H (.v145 { t with sig := s }) = partyAsked H "sender" t.parentKey s := fun s => by simp only [otherAsked, parties, minting, Option.toList_none, List.flatMap_nil, List.nil_append, List.flatMap_cons, List.append_nil]; rfl
      obtain ⟨rfl, e, h1, h2, h3⟩ := mem_partyAsked (ho' t.sig ▸ ha)
      have : selfSign H t.parentKey (.key k) (.bytes b) = .ok (some ⟨b, true⟩) := by rw [h1]; exact hself e (ht.parties _ (.head _) e h1) h3
      simp only [Tx.sign, this, true_and]
      refine answered_other (.inr ⟨_, rfl⟩) rfl rfl ?_
      rw [show otherAsked H (.v145 t) = _ from ho' t.sig]
      exact (ho' (some ⟨b, true⟩)).trans (party_done h1 h3).symm
    | v210 t =>
      have ho' : ∀ s, otherAsked H (.v210 { t with sig := s }) = partyAsked H "registration" t.key s := fun s => by simp only [otherAsked, parties, minting, Option.toList_none, List.flatMap_nil, List.nil_append, List.flatMap_cons, List.append_nil]; rfl
      obtain ⟨rfl, e, h1, h2, h3⟩ := mem_partyAsked (ho' t.sig ▸ ha)
      have : selfSign H t.key (.key k) (.bytes b) = .ok (some ⟨b, true⟩) := by rw [h1]; exact hself e (ht.parties _ (.head _) e h1) h3
      simp only [Tx.sign, this, true_and]
      refine answered_other (.inr ⟨_, rfl⟩) rfl rfl ?_
      rw [show otherAsked H (.v210 t) = _ from ho' t.sig]
      exact (ho' (some ⟨b, true⟩)).trans (party_done h1 h3).symm
    | v146 t =>
      have ho' : ∀ s r, otherAsked H (.v146 { t with senderSig := s, receiverSig := r }) = partyAsked H "sender" t.senderKey s ++ partyAsked H "receiver" t.receiverKey r :=
        fun s r => by simp only [otherAsked, parties, minting, Option.toList_none, List.flatMap_nil, List.nil_append, List.flatMap_cons, List.append_nil]; rfl
      have hne : (SigTarget.self (Wire.ascii "sender".toList)) ≠ .self (Wire.ascii "receiver".toList) := by decide
      rw [show otherAsked H (.v146 t) = _ from ho' t.senderSig t.receiverSig] at ha
      rcases List.mem_append.1 ha with ha | ha
      · obtain ⟨rfl, e, h1, h2, h3⟩ := mem_partyAsked ha
        have hkey := keyAddress_eq H (ht.parties _ (.head _) e h1)
        have : t.signSelf H (.key k) (.bytes b) = ({ t with senderSig := some ⟨b, true⟩ }, none) := by
          simp [TxV146.signSelf, TxV146.signSelfRes, keyOr, h1, hkey, keyAddress_eq H hkf, hka, ← h3, h64', bind, Except.bind, pure, Except.pure]
        simp only [Tx.sign, this, true_and]
        refine answered_other (.inr ⟨_, rfl⟩) rfl rfl ?_
        rw [show otherAsked H (.v146 t) = _ from ho' t.senderSig t.receiverSig, List.filter_append, party_done h1 h3]
        refine (ho' _ _).trans ?_
        congr 1
        refine (filter_other ?_).symm
        intro x hx
        rw [(mem_partyAsked (z := x.1) (a := x.2) hx).1]
        exact hne.symm
      · obtain ⟨rfl, e, h1, h2, h3⟩ := mem_partyAsked ha
        have hkey := keyAddress_eq H (ht.parties _ (.tail _ (.head _)) e h1)
        have hdiff := hp t e rfl h1
        have hsend : (keyOr t.senderKey).unlockhash H = .ok (keyAddress H (t.senderKey.getD .default)) := by
          cases hsk : t.senderKey with
          | none => exact keyAddress_eq H (by decide)
          | some s => exact keyAddress_eq H (ht.parties _ (.head _) s hsk)
        have : t.signSelf H (.key k) (.bytes b) = ({ t with receiverSig := some ⟨b, true⟩ }, none) := by
          simp only [TxV146.signSelf, TxV146.signSelfRes, hsend, h1, show (keyOr (some e)).unlockhash H = _ from hkey, keyAddress_eq H hkf, hka, h3, h64', bind, Except.bind, pure, Except.pure, hdiff.symm,
            if_false, if_true, Option.getD_some]
        simp only [Tx.sign, this, true_and]
        refine answered_other (.inr ⟨_, rfl⟩) rfl rfl ?_
        rw [show otherAsked H (.v146 t) = _ from ho' t.senderSig t.receiverSig, List.filter_append, party_done h1 h3]
        refine (ho' _ _).trans ?_
        congr 1
        refine (filter_other ?_).symm
        intro x hx
        rw [(mem_partyAsked (z := x.1) (a := x.2) hx).1]
        exact hne

/-! ## When nothing is asked, all is signed -/

theorem fulfilled_of_none {H : Bytes → Bytes} {f : Fulfillment} {c : Condition} (hf : Fitting f c) (hs : Settled H f c)
    (h : askedFor H f c = []) : f.isFulfilled c = .ok true := by
  have hall : ∀ u ∈ owners c, u ∈ (holders f).map (keyAddress H) := by
    intro u hu
    have := List.filter_eq_nil_iff.1 h u hu
    simpa using this
  have one : ∀ k s u, f = .single k s → u ∈ owners c → s.isSome = true := by
    rintro k s u rfl hu
    have h1 := hall u hu
    simp only [holders, List.map_cons, List.map_nil, List.mem_singleton] at h1
    cases s with
    | some _ => rfl
    | none => exact absurd (h1 ▸ hu) hs
  have many : ∀ ps os n, f = .multi ps → owners c = os → (n : Int) ≤ os.dedup.length → n ≤ (ps.length : Int) := by
    rintro ps os n rfl rfl hn
    have hsub : (owners c).dedup ⊆ ps.map fun p => keyAddress H p.key := by
      intro u hu
      have := hall u (List.mem_dedup.1 hu)
      simpa [holders, List.map_map, Function.comp_def] using this
    have := (List.subperm_of_subset (List.nodup_dedup _) hsub).length_le
    rw [List.length_map] at this
    omega
  have hsu := hf.suits
  match f, c with
  | .single k s, .nil => rw [Fulfillment.isFulfilled]; simp only [Condition.unwrap, one k s _ rfl (List.mem_singleton.2 rfl)]
  | .single k s, .unlockHash u => rw [Fulfillment.isFulfilled]; simp only [Condition.unwrap, one k s _ rfl (List.mem_singleton.2 rfl)]
  | .single k s, .lockTime _ .nil => rw [Fulfillment.isFulfilled]; simp only [Condition.unwrap, one k s _ rfl (List.mem_singleton.2 rfl)]
  | .single k s, .lockTime _ (.unlockHash u) => rw [Fulfillment.isFulfilled]; simp only [Condition.unwrap, one k s _ rfl (List.mem_singleton.2 rfl)]
  | .multi ps, .multiSig os n => rw [Fulfillment.isFulfilled]; simp only [Condition.unwrap, many ps os n rfl rfl hs, decide_true]
  | .multi ps, .lockTime _ (.multiSig os n) => rw [Fulfillment.isFulfilled]; simp only [Condition.unwrap, many ps os n rfl rfl hs, decide_true]
  | .swap k sg sec, .atomicSwap u v a b =>
    have h1 := hall u (List.mem_cons_self ..)
    simp only [holders, List.map_cons, List.map_nil, List.mem_singleton] at h1
    cases sg with
    | some _ => rfl
    | none => exact absurd (h1 ▸ List.mem_cons_self ..) hs

theorem asked_nil {H : Bytes → Bytes} {f : Fulfillment} {c : Condition} {tag : UnlockHash → SigTarget × UnlockHash} (h : (askedFor H f c).map tag = []) :
    askedFor H f c = [] := List.map_eq_nil_iff.1 h

theorem reduce_true {l : List CoinInput} (h : ∀ ci ∈ l, ci.isFulfilled = .ok true) : reduceFulfilled true l = .ok true := by
  induction l with
  | nil => rfl
  | cons a l ih =>
    rw [reduceFulfilled, h a (by simp)]
    exact ih fun x hx => h x (by simp [hx])

/-- C113: when nothing is asked any more the transaction is fulfilled, and so are its blockstake inputs: if the parent outputs and the parties are known,
thresholds can be reached and every key was entered with a signature. -/
theorem C113_complete_partial (H : Bytes → Bytes) (t : Tx) (ht : Askable t) (ho : ∀ x ∈ knownCoins t ++ knownStakes t, Settled H x.2.1 x.2.2)
    (hm : ∀ x ∈ minting t, ∀ f, x.1 = some f → Settled H f x.2) (hk : AllKnown t) (h : Ask.asked H t = []) :
    t.isFulfilled = .ok true ∧ ∀ si ∈ t.stakeInputs, si.isFulfilled = .ok true := by
  obtain ⟨hk1, hk2, hk3⟩ := hk
  rw [Ask.asked] at h
  simp only [List.append_eq_nil_iff, List.flatMap_eq_nil_iff] at h
  obtain ⟨⟨⟨h1, h2⟩, h3⟩, h4⟩ := h
  constructor
  · unfold Tx.isFulfilled
    have he : t.extraFulfilled = .ok true := by
      have hmint : ∀ f p, minting t = Option.map (f, ·) p → p ≠ none → mintFulfilled f p = .ok true := by
        intro f p e hp
        cases p with
        | none => exact absurd rfl hp
        | some c =>
          rw [e] at h3 hm
          obtain ⟨g, e', hg⟩ := ht.mint (f, c) (by rw [e]; rfl)
          simp only at e'
          subst e'
          have := h3 (some g, c) (by simp)
          simp only [Option.toList_some, List.flatMap_cons, List.flatMap_nil, List.append_nil] at this
          exact fulfilled_of_none hg (hm _ rfl g rfl) (asked_nil this)
      have hparty : ∀ w k s, (w, k, s) ∈ parties t → s.isSome = true := by
        intro w k s hx
        have := h4 _ hx
        simp only at this
        cases s with
        | some _ => rfl
        | none =>
          obtain ⟨e, he⟩ := Option.ne_none_iff_exists'.1 (hk2 _ hx)
          simp only at he
          subst he
          simp at this
      cases t with
      | v128 t => exact hmint t.mintFulfillment t.parent rfl (by intro e; exact hk3 (by simp [minting, e]))
      | v129 t => exact hmint t.mintFulfillment t.parent rfl (by intro e; exact hk3 (by simp [minting, e]))
      | v144 t => exact congrArg Except.ok (hparty _ _ _ (.head _))
      | v145 t => exact congrArg Except.ok (hparty _ _ _ (.head _))
      | v210 t => exact congrArg Except.ok (hparty _ _ _ (.head _))
      | v146 t => exact congrArg Except.ok (by rw [hparty _ _ _ (.head _), hparty _ _ _ (.tail _ (.head _))]; rfl)
      | _ t => rfl
    have hl := ht.list
    cases hc : t.coinInputs with
    | none => exact absurd hc hl
    | some l =>
      simp only [he, bind, Except.bind]
      apply reduce_true
      intro ci hci
      have hcs : coinsOf t = l := by simp [coinsOf, hc]
      obtain ⟨i, hi, e⟩ := List.getElem_of_mem hci
      have hget : (coinsOf t)[i]? = some ci := by rw [hcs, ← e]; simp [hi]
      cases hp : ci.parent with
      | none => exact absurd hp (hk1 ci (by rw [hcs]; exact hci))
      | some co =>
        have hmem := mem_knownCoins hget hp
        rw [CoinInput.isFulfilled, hp]
        exact fulfilled_of_none (ht.coins _ hmem) (ho _ (List.mem_append_left _ hmem)) (asked_nil (h1 _ hmem))
  · intro si hsi
    obtain ⟨i, hi, e⟩ := List.getElem_of_mem hsi
    have hmem : (i, si.fulfillment, si.parent.condition) ∈ knownStakes t :=
      List.mem_map.2 ⟨(si, i), List.mem_zipIdx_iff_getElem?.2 (by rw [← e]; simp [hi]), rfl⟩
    exact fulfilled_of_none (ht.stakes _ hmem) (ho _ (List.mem_append_right _ hmem)) (asked_nil (h2 _ hmem))

/-! ## Where it asks too much or too little -/

/-- A transaction spending a nil output with a key entered and a signature, or one of a multi-signature wallet of which one of two has to sign. -/
def spending (f : Fulfillment) (c : Condition) : Tx := .v1 { coinInputs := [⟨⟨List.replicate 32 1⟩, f, some ⟨⟨some ⟨false, 5, 0⟩⟩, c, ⟨[]⟩⟩⟩] }
@[inherit_doc spending] def oneOfTwo : Tx := spending (.multi [⟨key1, ⟨List.replicate 64 2, false⟩⟩]) (.multiSig [addrOf key1, addrOf key2] 1)

/-- C113 is false: a fulfilled transaction still asks the other owner of a multi-signature wallet; the owner of a nil output is asked for ever; and after a
failed attempt to sign with a wrong signature the owner is not asked any more, although nothing is signed. -/
theorem C113_asks_false :
    (oneOfTwo.isFulfilled = .ok true ∧ oneOfTwo.requests toyHash = .ok [⟨.coin 0, { owner := addrOf key2 }⟩]) ∧
    ((spending (.single key1 (some ⟨List.replicate 64 2, false⟩)) .nil).isFulfilled = .ok true ∧
      (spending (.single key1 (some ⟨List.replicate 64 2, false⟩)) .nil).requests toyHash = .ok [⟨.coin 0, { owner := ⟨0, ⟨[]⟩⟩ }⟩]) ∧
    ((spending (.single .default none) (.unlockHash (addrOf key1))).requests toyHash = .ok [⟨.coin 0, { owner := addrOf key1 }⟩] ∧
      ∃ t, ({ owner := addrOf key1 } : Request).fulfillCb toyHash (fun t k s => t.sign toyHash (.coin 0) k s)
          (spending (.single .default none) (.unlockHash (addrOf key1))) (.key key1) (.bytes [1]) = (({ owner := addrOf key1 }, t), some .valueError) ∧
        t.isFulfilled = .ok false ∧ t.requests toyHash = .ok []) := by
  refine ⟨⟨by decide +kernel, by decide +kernel⟩, ⟨by decide +kernel, by decide +kernel⟩, by decide +kernel,
    spending (.single key1 none) (.unlockHash (addrOf key1)), by decide +kernel, by decide +kernel, by decide +kernel⟩

/-- An atomic swap between the owners of two keys, spent with the given key and signature. -/
def swapSpend (k : PublicKey) (s : Option Signature) : Tx :=
  spending (.swap k s (some (List.replicate 32 5))) (.atomicSwap (addrOf key2) (addrOf key1) (some (List.replicate 32 9)) 100)

/-- C113 is false for atomic swaps: once the receiver has signed, the sender is asked although nothing is missing, and the sender's answer
replaces the receiver's signature; then the receiver is asked again. -/
theorem C113_swap_false :
    (swapSpend .default none).requests toyHash = .ok [⟨.coin 0, { owner := addrOf key2 }⟩, ⟨.coin 0, { owner := addrOf key1 }⟩] ∧
    ∃ t u, ({ owner := addrOf key1 } : Request).fulfillCb toyHash (fun t k s => t.sign toyHash (.coin 0) k s) (swapSpend .default none) (.key key1)
        (.bytes (List.replicate 64 2)) = (({ owner := addrOf key1, signed := true }, t), none) ∧
      t.isFulfilled = .ok true ∧ t.requests toyHash = .ok [⟨.coin 0, { owner := addrOf key2 }⟩] ∧
      ({ owner := addrOf key2 } : Request).fulfillCb toyHash (fun t k s => t.sign toyHash (.coin 0) k s) t (.key key2)
        (.bytes (List.replicate 64 3)) = (({ owner := addrOf key2, signed := true }, u), none) ∧
      u = swapSpend key2 (some ⟨List.replicate 64 3, false⟩) ∧ u.requests toyHash = .ok [⟨.coin 0, { owner := addrOf key1 }⟩] := by
  exact ⟨by decide +kernel, swapSpend key1 (some ⟨List.replicate 64 2, false⟩), swapSpend key2 (some ⟨List.replicate 64 3, false⟩),
    by decide +kernel, by decide +kernel, by decide +kernel, by decide +kernel, rfl, by decide +kernel⟩

/-- Non-vacuity for atomic swaps: neither party has signed. -/
example : Askable (swapSpend .default none) ∧ (∀ x ∈ knownCoins (swapSpend .default none) ++ knownStakes (swapSpend .default none),
      Ordinary toyHash x.2.1 x.2.2 ∧ Settled toyHash x.2.1 x.2.2) ∧ AllKnown (swapSpend .default none) := by
  have hd : KeyFits .default := by decide
  have f1 : FullAddress (addrOf key1) := toyHash_digest _
  have f2 : FullAddress (addrOf key2) := toyHash_digest _
  refine ⟨⟨by decide, ?_, ?_, ?_, ?_⟩, ?_, ⟨by decide, by decide, trivial⟩⟩
  · intro x hx
    simp [knownCoins, coinsOf, swapSpend, spending, Tx.coinInputs] at hx
    subst hx
    exact ⟨trivial, by simpa [holders] using hd, by simpa [owners] using ⟨.inl f2, .inl f1⟩⟩
  · intro x hx; simp [knownStakes, swapSpend, spending, Tx.stakeInputs] at hx
  · intro x hx; simp [swapSpend, spending, minting] at hx
  · intro x hx; simp [swapSpend, spending, parties] at hx
  · intro x hx
    simp [knownCoins, coinsOf, knownStakes, swapSpend, spending, Tx.coinInputs, Tx.stakeInputs] at hx
    subst hx
    have h : keyAddress toyHash .default ∉ owners (.atomicSwap (addrOf key2) (addrOf key1) (some (List.replicate 32 9)) 100) := by decide +kernel
    exact ⟨h, h⟩

/-- Non-vacuity: a transaction with a coin input and two blockstake inputs, the second of a multi-signature wallet one of whose owners signed. -/
def askDemo : Tx := .v1 {
  coinInputs := [⟨⟨List.replicate 32 1⟩, .single .default none, some ⟨⟨some ⟨false, 5, 0⟩⟩, .unlockHash (addrOf key1), ⟨[]⟩⟩⟩],
  stakeInputs := [⟨⟨List.replicate 32 1⟩, .single .default none, ⟨⟨1⟩, .unlockHash (addrOf key2), ⟨[]⟩⟩⟩,
    ⟨⟨List.replicate 32 2⟩, .multi [⟨key1, ⟨List.replicate 64 2, false⟩⟩], ⟨⟨1⟩, .lockTime 5 (.multiSig [addrOf key1, addrOf key2] 2), ⟨[]⟩⟩⟩] }
theorem askDemo_askable : Askable askDemo ∧ ∀ x ∈ knownCoins askDemo ++ knownStakes askDemo, Ordinary toyHash x.2.1 x.2.2 ∧ Settled toyHash x.2.1 x.2.2 := by
  have hd : KeyFits .default := by decide
  have h1 : KeyFits key1 := by decide
  have f1 : FullAddress (addrOf key1) := toyHash_digest _
  have f2 : FullAddress (addrOf key2) := toyHash_digest _
  refine ⟨⟨by decide, ?_, ?_, ?_, ?_⟩, ?_⟩
  · intro x hx
    simp [knownCoins, coinsOf, askDemo, Tx.coinInputs] at hx
    subst hx
    exact ⟨trivial, by simpa [holders] using hd, by simpa [owners] using .inl f1⟩
  · intro x hx
    simp [knownStakes, askDemo, Tx.stakeInputs] at hx
    rcases hx with rfl | rfl
    · exact ⟨trivial, by simpa [holders] using hd, by simpa [owners] using .inl f2⟩
    · exact ⟨trivial, by simpa [holders] using h1, by simpa [owners] using ⟨.inl f1, .inl f2⟩⟩
  · intro x hx; simp [askDemo, minting] at hx
  · intro x hx; simp [askDemo, parties] at hx
  · intro x hx
    simp [knownCoins, coinsOf, knownStakes, askDemo, Tx.coinInputs, Tx.stakeInputs] at hx
    rcases hx with rfl | rfl | rfl
    · exact ⟨trivial, show keyAddress toyHash .default ∉ owners (.unlockHash (addrOf key1)) by decide +kernel⟩
    · exact ⟨trivial, show keyAddress toyHash .default ∉ owners (.unlockHash (addrOf key2)) by decide +kernel⟩
    · refine ⟨?_, show (2 : Int) ≤ ([addrOf key1, addrOf key2].dedup.length : Int) by decide +kernel⟩
      intro p hp; simp at hp; subst hp; rfl
example : Ask.asked toyHash askDemo = [(.coin 0, addrOf key1), (.stake 0, addrOf key2), (.stake 1, addrOf key2)] := by decide +kernel
example : AllKnown askDemo := ⟨by decide, by decide, trivial⟩
/-- A name transfer of two parties, the first of which has signed. -/
def askTransfer : Tx := .v146
  { sender := some 1, receiver := some 2, coinInputs := some [], senderKey := some key1, receiverKey := some key2, senderSig := some ⟨List.replicate 64 2, true⟩ }
example : Askable askTransfer ∧ Ask.asked toyHash askTransfer = [(.self (Wire.ascii "receiver".toList), addrOf key2)] ∧
    keyAddress toyHash key1 ≠ keyAddress toyHash key2 := by
  refine ⟨⟨by decide, ?_, ?_, ?_, ?_⟩, by decide +kernel, by decide +kernel⟩
  · intro x hx; simp [knownCoins, coinsOf, askTransfer, Tx.coinInputs] at hx
  · intro x hx; simp [knownStakes, askTransfer, Tx.stakeInputs] at hx
  · intro x hx; simp [askTransfer, minting] at hx
  · intro x hx k hk
    simp only [askTransfer, parties, List.mem_cons, List.not_mem_nil, or_false] at hx
    rcases hx with rfl | rfl <;> (cases hk; decide)

end TF.Props
