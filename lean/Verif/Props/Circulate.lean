import Verif.Spec.Circulate
import Verif.Props.SignForeign
import Verif.Props.Live
import Verif.Props.Asked
import Verif.Props.TxJson
import Mathlib.Data.List.Nodup
import Mathlib.Data.List.Perm.Subperm
/-! # C126: a payment from multi-signature wallets is submitted once enough owners have signed -/
namespace TF.Props
open TF Spec

/-! ## The owners' keys -/

theorem owner_key {H : Bytes → Bytes} (hH : Digest32 H) {W : World} (hW : W.H = H) (hk : GoodKeys W) {u : UnlockHash} (hu : FullAddress u ∧ u.type = 1) {k : PublicKey}
    (h : W.keys.get? (u.str H) = some k) : FullKey k ∧ Ask.keyAddress H k = u := by
  subst hW
  have hf := key_full hk h
  refine ⟨hf, ?_⟩
  obtain ⟨a', h1, h2⟩ := get_lookup h
  obtain ⟨v, hv, hva⟩ := hk.filed a' k h1
  rw [keyAddress_eq W.H (Nat.le_of_eq hf)] at hv
  cases hv
  rcases h2 with rfl | h2
  · exact ((str_keyAddress hH (.inl hu.1) k).1 hva.symm).symm
  · have := take_uh h2; rw [hu.2] at this; exact absurd this (by decide)

theorem held_addresses {H : Bytes → Bytes} (hH : Digest32 H) {W : World} (hW : W.H = H) (hk : GoodKeys W) : ∀ (us : List UnlockHash), (∀ u ∈ us, FullAddress u ∧ u.type = 1) →
    (heldKeys W us).map (Ask.keyAddress H) = us.filter fun u => (W.keys.get? (u.str H)).isSome
  | [], _ => rfl
  | u :: us, hu => by
    have ih := held_addresses hH hW hk us (fun v hv => hu v (List.mem_cons_of_mem _ hv))
    cases hg : W.keys.get? (u.str H) with
    | none =>
      rw [held_none (by rw [hW]; exact hg), ih, List.filter_cons, hg]; rfl
    | some k =>
      rw [held_some (by rw [hW]; exact hg), List.map_cons, ih, List.filter_cons, hg, (owner_key hH hW hk (hu u List.mem_cons_self) hg).2]; rfl

theorem held_mem {W : World} {us : List UnlockHash} {k : PublicKey} (h : k ∈ heldKeys W us) : ∃ u ∈ us, W.keys.get? (u.str W.H) = some k :=
  List.mem_filterMap.mp h

theorem signers_keys (Ws : List World) (ci : CoinInput) : (signersAt Ws ci).map (·.2) = Ws.flatMap fun W => heldKeys W (ownersIn ci) := by
  unfold signersAt
  rw [List.map_flatMap]
  congr 1
  funext W
  rw [List.map_map]
  exact List.map_id _

theorem signers_append (Ws : List World) (W : World) (ci : CoinInput) :
    signersAt (Ws ++ [W]) ci = signersAt Ws ci ++ (heldKeys W (ownersIn ci)).map fun k => (W, k) := by
  simp [signersAt]

/-- Different signers are different owners. -/
theorem signers_nodup {H : Bytes → Bytes} (hH : Digest32 H) {l : List CoinInput} {ci : CoinInput} (hci : ci ∈ l) (hn : (ownersIn ci).Nodup)
    (hf : ∀ u ∈ ownersIn ci, FullAddress u ∧ u.type = 1) {Ws : List World} (ht : ∀ W ∈ Ws, W.H = H ∧ GoodKeys W) (hs : Separate H l Ws) :
    (((signersAt Ws ci).map (·.2)).map (Ask.keyAddress H)).Nodup ∧ ∀ u ∈ ((signersAt Ws ci).map (·.2)).map (Ask.keyAddress H), u ∈ ownersIn ci := by
  rw [signers_keys, List.map_flatMap]
  have e : (Ws.flatMap fun W => (heldKeys W (ownersIn ci)).map (Ask.keyAddress H)) = Ws.flatMap fun W => (ownersIn ci).filter fun u => (W.keys.get? (u.str H)).isSome := by
    unfold List.flatMap
    congr 1
    exact List.map_congr_left fun W hW => held_addresses hH (ht W hW).1 (ht W hW).2 _ hf
  rw [e]
  constructor
  · rw [List.nodup_flatMap]
    refine ⟨fun W _ => hn.filter _, hs.imp fun {W W'} h u h1 h2 => ?_⟩
    rw [List.mem_filter] at h1 h2
    rcases h ci hci u h1.1 with g | g
    · rw [g] at h1; exact absurd h1.2 (by simp)
    · rw [g] at h2; exact absurd h2.2 (by simp)
  · intro u hu
    obtain ⟨W, -, h⟩ := List.mem_flatMap.mp hu
    exact (List.mem_filter.mp h).1

theorem addAll_multi {W : World} {sg : PublicKey → Bytes} (hk : GoodKeys W) (hsg : ∀ pk, FullKey pk → (sg pk).length = 64) (us : List UnlockHash) :
    ∀ ps : List KeySig, (∀ p ∈ ps, FullKey p.key) → (ps.map KeySig.key ++ heldKeys W us).Nodup →
      AddOk W sg (.multi ps) us ∧ addAll W sg (.multi ps) us = .multi (ps ++ (heldKeys W us).map fun k => ⟨k, ⟨sg k, false⟩⟩) := by
  induction us with
  | nil => exact fun ps _ _ => ⟨trivial, by simp [addAll, heldKeys]⟩
  | cons u us ih =>
    intro ps hf hn
    cases hg : W.keys.get? (u.str W.H) with
    | none =>
      have e : addStep W sg (.multi ps) u = (.multi ps, none) := by unfold addStep; rw [hg]
      unfold AddOk addAll
      rw [held_none hg] at hn
      rw [e, held_none hg]
      exact ⟨⟨rfl, (ih ps hf hn).1⟩, (ih ps hf hn).2⟩
    | some pk =>
      rw [held_some hg] at hn
      have hfk := key_full hk hg
      have hnot : ¬ ps.any (fun p => p.key.str == pk.str) = true := by
        intro h
        obtain ⟨p, hp, he⟩ := List.any_eq_true.mp h
        have : p.key = pk := fullKey_str (hf p hp) hfk (by simpa using he)
        exact (List.nodup_append.mp hn).2.2 p.key (List.mem_map_of_mem hp) pk List.mem_cons_self this
      have e : addStep W sg (.multi ps) u = (.multi (ps ++ [⟨pk, ⟨sg pk, false⟩⟩]), none) := by
        unfold addStep; rw [hg]
        simp only [Fulfillment.signatureAdd, addPair, bind, Except.bind, setKey, signature64 (hsg pk hfk), pure, Except.pure, Option.getD]
        rw [if_neg hnot]
      obtain ⟨h1, h2⟩ := ih (ps ++ [⟨pk, ⟨sg pk, false⟩⟩])
        (fun p hp => by
          rcases List.mem_append.mp hp with hp | hp
          · exact hf p hp
          · rw [List.mem_singleton.mp hp]; exact hfk)
        (by rw [List.map_append]; simpa using hn)
      unfold AddOk addAll
      rw [e, held_some hg]
      exact ⟨⟨rfl, h1⟩, by rw [h2]; simp⟩

theorem held_filter {W : World} {us : List UnlockHash} (p : UnlockHash → Bool) (h : ∀ u ∈ us, p u = false → W.keys.get? (u.str W.H) = none) :
    heldKeys W (us.filter p) = heldKeys W us := by
  induction us with
  | nil => rfl
  | cons u us ih =>
    have ih := ih fun v hv => h v (List.mem_cons_of_mem _ hv)
    rw [List.filter_cons]
    cases hp : p u with
    | false => rw [if_neg (by simp), ih, held_none (h u List.mem_cons_self hp)]
    | true =>
      rw [if_pos rfl]
      cases hg : W.keys.get? (u.str W.H) with
      | none => rw [held_none hg, held_none hg, ih]
      | some k => rw [held_some hg, held_some hg, ih]

/-! ## A payment between two wallets -/

/-- The payment after the wallets `Ws` have signed. -/
structure Mid (L : IpLib) (H : Bytes → Bytes) (t : Tx) (l : List CoinInput) (Ws : List World) (t1 : Tx) (l1 : List CoinInput) : Prop where
  kind : (∃ v, t1 = .v1 v ∧ v.stakeInputs = []) ∨ ∃ v, t1 = .v208 v
  full : FullTx L t1
  fits : TxFits L t1
  same : SameSigned H t t1
  inputs : t1.coinInputs = some l1
  length : l1.length = l.length
  carries : ∀ (i : Nat) (ci ci1 : CoinInput), l[i]? = some ci → l1[i]? = some ci1 →
    ci1.parentId = ci.parentId ∧ ∃ ps, ci1.fulfillment = .multi ps ∧ List.Forall₂ (SignedBy H t i) (signersAt Ws ci) ps

theorem Mid.all {L : IpLib} {H : Bytes → Bytes} {t : Tx} {l : List CoinInput} {Ws : List World} {t1 : Tx} {l1 : List CoinInput} (h : Mid L H t l Ws t1 l1) :
    SignedByAll H t l Ws t1 := ⟨fun i pk => h.same.preimage (.coin i) pk, l1, h.inputs, h.length, h.carries⟩

/-- The inputs know the outputs they spend. -/
def Parents (l l1 : List CoinInput) : Prop := ∀ (i : Nat) (ci ci1 : CoinInput), l[i]? = some ci → l1[i]? = some ci1 →
  ∃ co co1, ci.parent = some co ∧ ci1.parent = some co1 ∧ co1.condition = co.condition

theorem kind_facts {L : IpLib} {t : Tx} (hk : (∃ v, t = .v1 v ∧ v.stakeInputs = []) ∨ ∃ v, t = .v208 v) (hf : TxFits L t) : Plain t ∧ ¬ IsLegacy t ∧
    t.stakeInputs = [] ∧ (∀ H, t.extraRequests H = .ok []) ∧ ∀ l, (withInputs t l).extraFulfilled = .ok true := by
  rcases hk with ⟨v, rfl, h⟩ | ⟨v, rfl⟩
  · exact ⟨trivial, by have := hf.1; simp [IsLegacy, this], h, fun _ => rfl, fun _ => rfl⟩
  · exact ⟨trivial, by simp [IsLegacy], rfl, fun _ => rfl, fun _ => rfl⟩

theorem withInputs_kind {t : Tx} (hk : (∃ v, t = .v1 v ∧ v.stakeInputs = []) ∨ ∃ v, t = .v208 v) (l : List CoinInput) :
    (∃ v, withInputs t l = .v1 v ∧ v.stakeInputs = []) ∨ ∃ v, withInputs t l = .v208 v := by
  rcases hk with ⟨v, rfl, h⟩ | ⟨v, rfl⟩
  · exact .inl ⟨_, rfl, h⟩
  · exact .inr ⟨_, rfl⟩

theorem withInputs_full {L : IpLib} {t : Tx} (hk : (∃ v, t = .v1 v ∧ v.stakeInputs = []) ∨ ∃ v, t = .v208 v) (ht : FullTx L t) {l : List CoinInput}
    (h : ∀ ci ∈ l, FullCoinInput ci) : FullTx L (withInputs t l) := by
  rcases hk with ⟨v, rfl, -⟩ | ⟨v, rfl⟩
  · exact ⟨ht.1, h, ht.2.2⟩
  · exact ⟨ht.1, ht.2.1, ht.2.2.1, h, ht.2.2.2.2⟩

theorem full_inputs {L : IpLib} {t : Tx} (hk : (∃ v, t = .v1 v ∧ v.stakeInputs = []) ∨ ∃ v, t = .v208 v) (ht : FullTx L t) {l : List CoinInput}
    (h : t.coinInputs = some l) : ∀ ci ∈ l, FullCoinInput ci := by
  rcases hk with ⟨v, rfl, -⟩ | ⟨v, rfl⟩
  · cases h; exact ht.2.1
  · cases h; exact ht.2.2.2.1

theorem withInputs_same {L : IpLib} {H : Bytes → Bytes} {t : Tx} (hk : (∃ v, t = .v1 v ∧ v.stakeInputs = []) ∨ ∃ v, t = .v208 v) (hf : TxFits L t) {l l1 : List CoinInput}
    (h : t.coinInputs = some l) (he : ∀ pk, l1.map (inKey pk) = l.map (inKey pk)) : SameSigned H t (withInputs t l1) := by
  have hid : l1.map (·.parentId) = l.map (·.parentId) := by
    have := congrArg (List.map Prod.fst) (he .default)
    rw [List.map_map, List.map_map] at this
    exact this
  rcases hk with ⟨v, rfl, -⟩ | ⟨v, rfl⟩
  · cases h
    have hl : v.legacy = false := hf.1
    refine ⟨fun e => ?_, fun pk => ?_, fun _ => rfl, fun _ => rfl, fun _ => by simp [withInputs, IsLegacy, hl]⟩
    · simp [withInputs, Tx.sigInput, TxV1.sigInput, hl, hid]
    · simp [withInputs, Tx.coinInputs, he]
  · cases h
    refine ⟨fun e => ?_, fun pk => ?_, fun _ => rfl, fun _ => rfl, fun _ h => h⟩
    · simp [withInputs, Tx.sigInput, TxV208.sigInput, hid]
    · simp [withInputs, Tx.coinInputs, he]

theorem unwrap_owners {ci : CoinInput} {co : CoinOutput} {os : List UnlockHash} {n : Int} (h1 : ci.parent = some co) (h2 : co.condition.unwrap = .multiSig os n) :
    ownersIn ci = os ∧ requiredIn ci = n := by
  simp only [ownersIn, requiredIn, h1, h2, and_self]

theorem unwrap_suits {c : Condition} {os : List UnlockHash} {n : Int} (h : c.unwrap = .multiSig os n) (ps : List KeySig) :
    Ask.Suits (.multi ps) c ∧ Ask.owners c = os := by
  cases c with
  | multiSig l m => cases h; exact ⟨trivial, rfl⟩
  | lockTime a c =>
    have h : c = .multiSig os n := h
    subst h; exact ⟨trivial, rfl⟩
  | nil => cases h
  | unlockHash u => cases h
  | atomicSwap => cases h

theorem forall₂_mem {α β : Type} {R : α → β → Prop} {a : List α} {b : List β} (h : List.Forall₂ R a b) {y : β} (hy : y ∈ b) : ∃ x ∈ a, R x y := by
  induction h with
  | nil => cases hy
  | cons h1 h2 ih =>
    cases hy with
    | head => exact ⟨_, List.mem_cons_self, h1⟩
    | tail _ hy => obtain ⟨x, hx, hr⟩ := ih hy; exact ⟨x, List.mem_cons_of_mem _ hx, hr⟩

theorem forall₂_keys {H : Bytes → Bytes} {t : Tx} {i : Nat} {a : List (World × PublicKey)} {b : List KeySig} (h : List.Forall₂ (SignedBy H t i) a b) :
    b.map KeySig.key = a.map (·.2) := by
  induction h with
  | nil => rfl
  | cons h1 _ ih => rw [List.map_cons, List.map_cons, ih, h1.1]

/-- A wallet signs: the signatures of the owners it has the keys of are added. -/
theorem sign_mid {L : IpLib} (hL : LawfulIp L) {H : Bytes → Bytes} (hH : Digest32 H) {t : Tx} {l : List CoinInput} (hj : Joint L t l) {Ws : List World} {W : World}
    {t1 : Tx} {l1 : List CoinInput} (hm : Mid L H t l Ws t1 l1) (hp : Parents l l1) (ht : ∀ W' ∈ Ws ++ [W], W'.H = H ∧ GoodKeys W') (hs : Separate H l (Ws ++ [W])) :
    ∃ rs t2 l2 n b, t1.requests H = .ok rs ∧ W.signAll rs t1 = .ok (t2, n) ∧ t2.isFulfilled = .ok b ∧ (b = true ↔ Enough (Ws ++ [W]) l) ∧
      Mid L H t l (Ws ++ [W]) t2 l2 ∧ (rs = [] → Ws ≠ [] ∧ (Enough (Ws ++ [W]) l → Enough Ws l)) := by
  obtain ⟨hWH, hk⟩ := ht W (by simp)
  have hWs : ∀ W' ∈ Ws, W'.H = H ∧ GoodKeys W' := fun W' h => ht W' (by simp [h])
  obtain ⟨hplain, hleg, hst, hex, hxf⟩ := kind_facts hm.kind hm.fits
  have hpre : ∀ i, i < l1.length → ∀ pk, FullKey pk → ∃ b, t1.preimage W.H (.coin i) pk = .ok b := fun i hi pk hpk =>
    C99_signable L hL W.H t1 hm.fits (.coin i) ⟨l1, hm.inputs, hi⟩ pk (Nat.le_of_eq hpk)
  -- everything about one input
  have hone : ∀ (i : Nat) (ci1 : CoinInput), l1[i]? = some ci1 → ∃ ci co co1 os n ps, l[i]? = some ci ∧ ci ∈ l ∧ ci.parent = some co ∧ ci1.parent = some co1 ∧
      co1.condition.unwrap = .multiSig os n ∧ ownersIn ci = os ∧ requiredIn ci = n ∧ ci1.parentId = ci.parentId ∧ ci1.fulfillment = .multi ps ∧
      List.Forall₂ (SignedBy H t i) (signersAt Ws ci) ps ∧ (∀ p ∈ ps, FullKey p.key ∧ FullSig p.sig) ∧
      heldKeys W (Ask.askedFor H (.multi ps) co1.condition) = heldKeys W os ∧ (ps.map KeySig.key ++ heldKeys W os).Nodup ∧ ps.length + (heldKeys W os).length ≤ 2 ^ 20 ∧
      ci1.requests W.H = .ok ((Ask.askedFor H (.multi ps) co1.condition).map fun u => { owner := u }) ∧
      (Ask.askedFor H (.multi ps) co1.condition = [] → ps ≠ [] ∧ heldKeys W os = []) := by
    intro i ci1 h1
    have hlt : i < l.length := by rw [← hm.length]; exact (List.getElem?_eq_some_iff.mp h1).1
    have h0 : l[i]? = some l[i] := List.getElem?_eq_getElem hlt
    have hci := List.mem_of_getElem? h0
    obtain ⟨co, co1, p1, p2, p3⟩ := hp i _ _ h0 h1
    obtain ⟨-, co', os, n, q1, q2⟩ := hj.multi _ hci
    rw [p1] at q1; cases q1
    obtain ⟨o1, o2⟩ := unwrap_owners p1 q2
    rw [← p3] at q2
    obtain ⟨c1, ps, c2, c3⟩ := hm.carries i _ _ h0 h1
    obtain ⟨w1, w2, w3, w4⟩ := hj.owners _ hci
    have hfull : ∀ p ∈ ps, FullKey p.key ∧ FullSig p.sig := by
      have := full_inputs hm.kind hm.full hm.inputs ci1 (List.mem_of_getElem? h1)
      have := this.2
      rw [c2] at this
      exact this
    obtain ⟨n1, n2⟩ := signers_nodup hH hci w2 w4 ht hs
    have hkeys : (signersAt (Ws ++ [W]) l[i]).map (·.2) = ps.map KeySig.key ++ heldKeys W os := by
      rw [signers_append, List.map_append, ← forall₂_keys c3, o1, List.map_map]
      congr 1
      exact List.map_id _
    rw [hkeys] at n1 n2
    obtain ⟨s1, s2⟩ := unwrap_suits q2 ps
    have hnone : ∀ u ∈ os, decide (u ∉ (ps.map KeySig.key).map (Ask.keyAddress H)) = false → W.keys.get? (u.str W.H) = none := by
      intro u hu hd
      have hd : u ∈ (ps.map KeySig.key).map (Ask.keyAddress H) := by simpa using hd
      rw [List.map_append] at n1
      cases hg : W.keys.get? (u.str W.H) with
      | none => rfl
      | some k =>
        have := (owner_key hH hWH hk (w4 u (o1 ▸ hu)) (by rw [← hWH]; exact hg)).2
        have hk' : k ∈ heldKeys W os := List.mem_filterMap.mpr ⟨u, hu, hg⟩
        exact absurd rfl ((List.nodup_append.mp n1).2.2 u hd u (this ▸ List.mem_map_of_mem hk'))
    have hasked : Ask.askedFor H (.multi ps) co1.condition = os.filter fun u => decide (u ∉ (ps.map KeySig.key).map (Ask.keyAddress H)) := by
      unfold Ask.askedFor; rw [s2]; rfl
    have hheld : heldKeys W (Ask.askedFor H (.multi ps) co1.condition) = heldKeys W os := by
      rw [hasked]; exact held_filter _ hnone
    refine ⟨l[i], co, co1, os, n, ps, h0, hci, p1, p2, q2, o1, o2, c1, c2, c3, hfull, hheld, n1.of_map, ?_, ?_, ?_⟩
    · have hle := (List.subperm_of_subset n1 n2).length_le
      rw [List.length_map, List.length_append, List.length_map, o1] at hle
      have : os.length ≤ 2 ^ 20 := o1 ▸ w3
      omega
    · unfold CoinInput.requests
      rw [p2, c2, hWH]
      exact requests_fitting hH ⟨s1, (fun k hk => by
        obtain ⟨p, hp, rfl⟩ := List.mem_map.mp hk
        exact Nat.le_of_eq (hfull p hp).1), fun u hu => .inl (w4 u (by rw [o1, ← s2]; exact hu)).1⟩
    · intro he
      constructor
      · rintro rfl
        rw [hasked] at he
        have : os = [] := by simpa using he
        exact w1 (o1.trans this)
      · rw [← hheld, he]; rfl
  let q : CoinInput → List Request := fun ci1 => match ci1.parent with
    | none => []
    | some co => (Ask.askedFor H ci1.fulfillment co.condition).map fun u => { owner := u }
  have hq : ∀ ci1 ∈ l1, ci1.requests W.H = .ok (q ci1) := fun ci1 hci1 => by
    obtain ⟨i, hi⟩ := List.mem_iff_getElem?.mp hci1
    obtain ⟨ci, co, co1, os, n, ps, -, -, -, h4, -, -, -, -, h9, -, -, -, -, -, h14, -⟩ := hone i ci1 hi
    simp only [q, h4, h9]; exact h14
  obtain ⟨rs, r1, r2, r3, r4, r5⟩ := coinRequests_ok l1 0 q hq
  have howners : ∀ (i : Nat) (ci1 : CoinInput) (co1 : CoinOutput), l1[i]? = some ci1 → ci1.parent = some co1 → ownersAt i rs = Ask.askedFor H ci1.fulfillment co1.condition :=
    fun i ci1 co1 hi hc => by
      have := r2 i ci1 hi
      rw [Nat.zero_add] at this
      rw [this]; simp only [q, hc, List.map_map]; exact List.map_id _
  have hsg : ∀ (i : Nat) (ci1 : CoinInput), l1[i]? = some ci1 → ∀ pk, FullKey pk → (sigAt W t1 i pk).length = 64 := fun i ci1 hi pk hpk =>
    sigAt_length hk (hpre i (List.getElem?_eq_some_iff.mp hi).1) hpk
  have hadd : ∀ (i : Nat) (ci1 : CoinInput), l1[i]? = some ci1 → ∀ os ps, ci1.fulfillment = .multi ps → (∀ p ∈ ps, FullKey p.key) →
      heldKeys W (ownersAt i rs) = heldKeys W os → (ps.map KeySig.key ++ heldKeys W os).Nodup → AddOk W (sigAt W t1 i) ci1.fulfillment (ownersAt i rs) ∧
      addAll W (sigAt W t1 i) ci1.fulfillment (ownersAt i rs) = .multi (ps ++ (heldKeys W os).map fun k => ⟨k, ⟨sigAt W t1 i k, false⟩⟩) :=
    fun i ci1 hi os ps h1 h2 h3 h4 => by
      have := addAll_multi hk (hsg i ci1 hi) (ownersAt i rs) ps h2 (by rw [h3]; exact h4)
      rw [h1, ← h3]; exact this
  obtain ⟨t2, n, l2, s1, s2, s3, s4, s6, s5⟩ := signAll_ok (by rw [hWH]; exact hH) hk hleg l1.length hpre rs (.refl _ _) hplain hm.inputs rfl
    (fun r hrm => by
      obtain ⟨⟨i, a, b⟩, ci, c, d⟩ := r5 r hrm
      refine ⟨?_, i, a, by simpa using b⟩
      simp only [q] at d
      split at d
      · cases d
      · obtain ⟨u, -, e⟩ := List.mem_map.mp d
        rw [← e])
    (fun i ci1 hi => by
      obtain ⟨ci, co, co1, os, n, ps, -, -, -, h4, -, -, -, -, h9, -, h10, h11, h12, -⟩ := hone i ci1 hi
      have e := howners i ci1 co1 hi h4
      exact (hadd i ci1 hi os ps h9 (fun p hp => (h10 p hp).1) (by rw [e, h9]; exact h11) h12).1)
  -- the inputs afterwards
  have hafter : ∀ (i : Nat) (ci ci2 : CoinInput), l[i]? = some ci → l2[i]? = some ci2 → ∃ ci1 ps co1 os n, l1[i]? = some ci1 ∧ ci1.parent = some co1 ∧
      co1.condition.unwrap = .multiSig os n ∧ ownersIn ci = os ∧ requiredIn ci = n ∧ ci1.parentId = ci.parentId ∧ ci1.fulfillment = .multi ps ∧
      List.Forall₂ (SignedBy H t i) (signersAt Ws ci) ps ∧ (∀ p ∈ ps, FullKey p.key ∧ FullSig p.sig) ∧ ps.length + (heldKeys W os).length ≤ 2 ^ 20 ∧
      ci2 = { ci1 with fulfillment := .multi (ps ++ (heldKeys W os).map fun k => ⟨k, ⟨sigAt W t1 i k, false⟩⟩) } := by
    intro i ci ci2 h0 h2
    have hlt : i < l1.length := by rw [← s4]; exact (List.getElem?_eq_some_iff.mp h2).1
    have h1 := List.getElem?_eq_getElem hlt
    obtain ⟨ci', co, co1, os, n, ps, a1, a2, a3, a4, a5, a6, a7, a8, a9, a10, a11, a12, a13, a14, a15, a16⟩ := hone i _ h1
    rw [h0] at a1; cases a1
    have := s5 i _ h1
    rw [h2] at this
    have e := howners i _ co1 h1 a4
    rw [(hadd i _ h1 os ps a9 (fun p hp => (a11 p hp).1) (by rw [e, a9]; exact a12) a13).2] at this
    exact ⟨_, ps, co1, os, n, h1, a4, a5, a6, a7, a8, a9, a10, a11, a14, Option.some.inj this⟩
  have hget : ∀ ci2 ∈ l2, ∃ (i : Nat) (ci : CoinInput), l[i]? = some ci ∧ l2[i]? = some ci2 := fun ci2 h => by
    obtain ⟨i, hi⟩ := List.mem_iff_getElem?.mp h
    have hlt := (List.getElem?_eq_some_iff.mp hi).1
    have := hm.length
    exact ⟨i, _, List.getElem?_eq_getElem (by omega), hi⟩
  have hsigned : ∀ (i : Nat) (k : PublicKey), i < l1.length → FullKey k → SignedBy H t i (W, k) ⟨k, ⟨sigAt W t1 i k, false⟩⟩ := fun i k hi hf => by
    obtain ⟨b, hb⟩ := hpre i hi k hf
    refine ⟨rfl, b, ?_, ?_⟩
    · rw [← hm.same.preimage (.coin i) k, ← hWH]; exact hb
    · show (⟨sigAt W t1 i k, false⟩ : Signature) = ⟨W.sign k (H b), false⟩
      have : sigAt W t1 i k = W.sign k (W.H b) := by unfold sigAt; rw [hb]
      rw [this, hWH]
  have hheldfull : ∀ os k, k ∈ heldKeys W os → FullKey k := fun os k h => by
    obtain ⟨u, -, hu⟩ := held_mem h; exact key_full hk hu
  have hcarry : ∀ (i : Nat) (ci ci2 : CoinInput), l[i]? = some ci → l2[i]? = some ci2 →
      ci2.parentId = ci.parentId ∧ ∃ ps, ci2.fulfillment = .multi ps ∧ List.Forall₂ (SignedBy H t i) (signersAt (Ws ++ [W]) ci) ps := by
    intro i ci ci2 h0 h2
    obtain ⟨ci1, ps, co1, os, n, b1, b2, b3, b4, b5, b6, b7, b8, b9, b10, rfl⟩ := hafter i ci ci2 h0 h2
    refine ⟨b6, _, rfl, ?_⟩
    rw [signers_append, b4]
    refine List.rel_append b8 ?_
    have hlt := (List.getElem?_eq_some_iff.mp b1).1
    have : ∀ ks : List PublicKey, (∀ k ∈ ks, FullKey k) → List.Forall₂ (SignedBy H t i) (ks.map fun k => (W, k)) (ks.map fun k => ⟨k, ⟨sigAt W t1 i k, false⟩⟩) := by
      intro ks
      induction ks with
      | nil => exact fun _ => .nil
      | cons k ks ih => exact fun h => .cons (hsigned i k hlt (h k List.mem_cons_self)) (ih fun x hx => h x (List.mem_cons_of_mem _ hx))
    exact this _ (hheldfull os)
  have hfulf : ∀ (i : Nat) (ci ci2 : CoinInput), l[i]? = some ci → l2[i]? = some ci2 → ci2.isFulfilled = .ok (decide (requiredIn ci ≤ ((signersAt (Ws ++ [W]) ci).length : Int))) := by
    intro i ci ci2 h0 h2
    obtain ⟨-, ps', c1, c2⟩ := hcarry i ci ci2 h0 h2
    obtain ⟨ci1, ps, co1, os, n, b1, b2, b3, b4, b5, b6, b7, b8, b9, b10, b11⟩ := hafter i ci ci2 h0 h2
    have hp2 : ci2.parent = some co1 := by rw [b11]; exact b2
    unfold CoinInput.isFulfilled
    rw [hp2, c1, c2.length_eq]
    simp only [Fulfillment.isFulfilled, b3, b5]
  obtain ⟨b, hb1, hb2⟩ := reduce_all (l := l2) fun ci2 h => by
    obtain ⟨i, ci, h0, h2⟩ := hget ci2 h
    exact ⟨_, hfulf i ci ci2 h0 h2⟩
  have hb : b = true ↔ Enough (Ws ++ [W]) l := by
    rw [hb2]
    constructor
    · intro h ci hci
      obtain ⟨i, hi⟩ := List.mem_iff_getElem?.mp hci
      have hlt := (List.getElem?_eq_some_iff.mp hi).1
      have hl := hm.length
      have h2 := List.getElem?_eq_getElem (l := l2) (i := i) (by omega)
      have := h _ (List.mem_of_getElem? h2)
      rw [hfulf i ci _ hi h2] at this
      exact of_decide_eq_true (Except.ok.inj this)
    · intro h ci2 hci2
      obtain ⟨i, ci, h0, h2⟩ := hget ci2 hci2
      rw [hfulf i ci ci2 h0 h2, decide_eq_true (h ci (List.mem_of_getElem? h0))]
  have hfin := inputs_fit hm.fits hm.inputs
  have hfuin := full_inputs hm.kind hm.full hm.inputs
  have hmid : Mid L H t l (Ws ++ [W]) (withInputs t1 l2) l2 := by
    refine ⟨withInputs_kind hm.kind l2, withInputs_full hm.kind hm.full fun ci2 h => ?_, withInputs_fits hm.fits ⟨?_, fun ci2 h => ?_⟩, ?_, withInputs_coins hplain l2, s4.trans hm.length, hcarry⟩
    · obtain ⟨i, ci, h0, h2⟩ := hget ci2 h
      obtain ⟨ci1, ps, co1, os, n, b1, b2, b3, b4, b5, b6, b7, b8, b9, b10, rfl⟩ := hafter i ci ci2 h0 h2
      refine ⟨(hfuin ci1 (List.mem_of_getElem? b1)).1, fun p hp => ?_⟩
      rcases List.mem_append.mp hp with hp | hp
      · exact b9 p hp
      · obtain ⟨k, hk', rfl⟩ := List.mem_map.mp hp
        have := hheldfull os k hk'
        exact ⟨this, hsg i ci1 b1 k this, rfl⟩
    · show l2.length ≤ _
      rw [s4]; exact hfin.1
    · obtain ⟨i, ci, h0, h2⟩ := hget ci2 h
      obtain ⟨ci1, ps, co1, os, n, b1, b2, b3, b4, b5, b6, b7, b8, b9, b10, rfl⟩ := hafter i ci ci2 h0 h2
      refine ⟨(hfin.2 ci1 (List.mem_of_getElem? b1)).1, ?_, fun p hp => ?_⟩
      · show (ps ++ _).length ≤ _
        rw [List.length_append, List.length_map]; exact b10
      · rcases List.mem_append.mp hp with hp | hp
        · exact ⟨Nat.le_of_eq (b9 p hp).1, Nat.le_of_eq (b9 p hp).2.1⟩
        · obtain ⟨k, hk', rfl⟩ := List.mem_map.mp hp
          have := hheldfull os k hk'
          exact ⟨Nat.le_of_eq this, Nat.le_of_eq (hsg i ci1 b1 k this)⟩
    · refine hm.same.trans (withInputs_same hm.kind hm.fits hm.inputs fun pk => ?_)
      refine List.ext_getElem? fun i => ?_
      rw [List.getElem?_map, List.getElem?_map]
      by_cases hi : i < l1.length
      · have hl := hm.length
        have h2 := List.getElem?_eq_getElem (l := l2) (i := i) (by omega)
        obtain ⟨ci1, ps, co1, os, n, b1, b2, b3, b4, b5, b6, b7, b8, b9, b10, b11⟩ := hafter i _ _ (List.getElem?_eq_getElem (l := l) (i := i) (by omega)) h2
        rw [h2, b1, b11]
        simp only [Option.map_some, inKey, b7, Fulfillment.hashExtras]
      · rw [List.getElem?_eq_none (by omega), List.getElem?_eq_none (by omega)]
  refine ⟨rs, t2, l2, n, b, ?_, s1, ?_, hb, s6 ▸ hmid, ?_⟩
  · unfold Tx.requests
    rw [hWH] at r1
    simp only [hm.inputs, r1, hst, stakeRequests, hex, bind, Except.bind, pure, Except.pure, List.append_nil]
  · unfold Tx.isFulfilled
    rw [s6]
    simp only [hxf, withInputs_coins hplain l2, bind, Except.bind, hb1]
  · rintro rfl
    have hnone : ∀ (i : Nat) (ci : CoinInput), l[i]? = some ci → heldKeys W (ownersIn ci) = [] ∧ signersAt Ws ci ≠ [] := fun i ci h0 => by
      have hlt := (List.getElem?_eq_some_iff.mp h0).1
      have hl := hm.length
      have h1 := List.getElem?_eq_getElem (l := l1) (i := i) (by omega)
      obtain ⟨ci', co, co1, os, n, ps, a1, a2, a3, a4, a5, a6, a7, a8, a9, a10, a11, a12, a13, a14, a15, a16⟩ := hone i _ h1
      rw [h0] at a1; cases a1
      have := howners i _ co1 h1 a4
      rw [a9] at this
      obtain ⟨c1, c2⟩ := a16 this.symm
      refine ⟨a6 ▸ c2, fun h => c1 ?_⟩
      rw [h] at a10
      cases a10; rfl
    constructor
    · rintro rfl
      obtain ⟨ci, l', rfl⟩ := List.exists_cons_of_ne_nil hj.nonempty
      exact (hnone 0 ci rfl).2 rfl
    · intro h ci hci
      obtain ⟨i, hi⟩ := List.mem_iff_getElem?.mp hci
      have := h ci hci
      rw [signers_append, (hnone i ci hi).1] at this
      simpa using this

/-! ## From wallet to wallet -/

theorem mid_start {L : IpLib} {H : Bytes → Bytes} {t : Tx} {l : List CoinInput} (hj : Joint L t l) : Mid L H t l [] t l ∧ Parents l l := by
  refine ⟨⟨hj.kind, hj.full, hj.fits, .refl _ _, hj.inputs, rfl, fun i ci ci1 h0 h1 => ?_⟩, fun i ci ci1 h0 h1 => ?_⟩
  · rw [h0] at h1; cases h1
    exact ⟨rfl, [], (hj.multi ci (List.mem_of_getElem? h0)).1, .nil⟩
  · rw [h0] at h1; cases h1
    obtain ⟨-, co, os, n, h, -⟩ := hj.multi ci (List.mem_of_getElem? h0)
    exact ⟨co, co, h, h, rfl⟩

theorem backCur_fits {c : Currency} (h : AmountFits c) : AmountFits (backCur c) := ⟨backCur_good c, by rw [backCur_amount]; exact h.2⟩
theorem allFit_map {α : Type} {P : α → Prop} {f : α → α} {l : List α} (h : AllFit P l) (hf : ∀ x, P x → P (f x)) : AllFit P (l.map f) :=
  ⟨by show (l.map f).length ≤ _; rw [List.length_map]; exact h.1, fun x hx => by obtain ⟨y, hy, rfl⟩ := List.mem_map.mp hx; exact hf y (h.2 y hy)⟩
theorem all_map {α : Type} {P : α → Prop} {f : α → α} {l : List α} (h : ∀ x ∈ l, P x) (hf : ∀ x, P x → P (f x)) : ∀ x ∈ l.map f, P x :=
  fun x hx => by obtain ⟨y, hy, rfl⟩ := List.mem_map.mp hx; exact hf y (h y hy)
theorem backOut_sane {co : CoinOutput} (h : SaneCoinOutput co) : SaneCoinOutput (backOut co) := ⟨backCur_sane h.1, h.2⟩

/-- Read from its JSON, the payment is the same, but the inputs do not know the outputs they spend. -/
theorem mid_read {L : IpLib} {H : Bytes → Bytes} (hH : Digest32 H) {t : Tx} {l : List CoinInput} {Ws : List World} {t1 : Tx} {l1 : List CoinInput}
    (hm : Mid L H t l Ws t1 l1) : ∃ j t2, t1.json L H = .ok j ∧ Tx.fromJson L H j = .ok t2 ∧ Mid L H t l Ws t2 (l1.map backIn) := by
  have hc : ∀ (i : Nat) (ci ci1 : CoinInput), l[i]? = some ci → (l1.map backIn)[i]? = some ci1 →
      ci1.parentId = ci.parentId ∧ ∃ ps, ci1.fulfillment = .multi ps ∧ List.Forall₂ (SignedBy H t i) (signersAt Ws ci) ps := by
    intro i ci ci1 h0 h1
    rw [List.getElem?_map] at h1
    obtain ⟨cx, hx, rfl⟩ := Option.map_eq_some_iff.mp h1
    exact hm.carries i ci cx h0 hx
  obtain ⟨kind, full, fits, same, inputs, length, -⟩ := hm
  rcases kind with ⟨v, rfl, hst⟩ | ⟨v, rfl⟩
  · cases inputs
    obtain ⟨j, h1, h2, -, -, h5, -⟩ := v1_as L H hH v full
    refine ⟨j, _, h1, h2, .inl ⟨_, rfl, by simp [backV1, hst]⟩, ?_, ?_, same.trans ⟨h5, fun pk => ?_, fun pk => ?_, fun _ => rfl, fun _ => by simp [IsLegacy, backV1]⟩, rfl,
      by rw [List.length_map]; exact length, hc⟩
    · exact ⟨rfl, all_map full.2.1 fun _ h => h, all_map full.2.2.1 fun _ h => backOut_sane h, (by simp [backV1, hst]),
        (fun x hx => by obtain ⟨y, hy, rfl⟩ := List.mem_map.mp hx; exact full.2.2.2.2.1 y hy), all_map full.2.2.2.2.2 fun _ h => backCur_sane h⟩
    · exact ⟨rfl, allFit_map fits.2.1 fun _ h => h, allFit_map fits.2.2.1 fun _ h => ⟨backCur_fits h.1, h.2⟩, allFit_map fits.2.2.2.1 fun _ h => h,
        allFit_map fits.2.2.2.2.1 fun _ h => h, allFit_map fits.2.2.2.2.2.1 fun _ h => backCur_fits h, fits.2.2.2.2.2.2⟩
    · simp only [Tx.coinInputs, backV1, Option.map_some, List.map_map]; rfl
    · simp [Tx.stakeInputs, backV1, hst]
  · cases inputs
    obtain ⟨j, h1, h2, -, -, h5, -⟩ := v208_as L H hH v full
    have hfee : AmountFits (feeOr v.fee) := by
      cases hf : v.fee with
      | none =>
        have h := full.2.2.1.1
        rw [hf] at h
        exact ⟨h, by decide⟩
      | some c => exact fits.2.1 c hf
    refine ⟨j, _, h1, h2, .inr ⟨_, rfl⟩, ?_, ?_, same.trans ⟨h5, fun pk => ?_, fun pk => rfl, fun _ => rfl, fun _ => by simp [IsLegacy]⟩, rfl,
      by rw [List.length_map]; exact length, hc⟩
    · refine ⟨full.1, backCur_sane full.2.1, backCur_sane full.2.2.1, all_map full.2.2.2.1 fun _ h => h, fun x hx => ?_⟩
      obtain ⟨y, hy, rfl⟩ := Option.mem_map.mp hx
      exact backOut_sane (full.2.2.2.2 y hy)
    · refine ⟨backCur_fits fits.1, fun c hc => ?_, allFit_map fits.2.2.1 fun _ h => h, fun x hx => ?_⟩
      · cases hc; exact backCur_fits hfee
      · obtain ⟨y, hy, rfl⟩ := Option.map_eq_some_iff.mp hx
        have := fits.2.2.2 y hy
        exact ⟨backCur_fits this.1, this.2⟩
    · simp only [Tx.coinInputs, backV208, Option.map_some, List.map_map]; rfl

/-- The wallet adds what it knows of the spent outputs. -/
theorem mid_known {L : IpLib} {H : Bytes → Bytes} {t : Tx} {l : List CoinInput} (hj : Joint L t l) {Ws : List World} {t1 : Tx} {l1 : List CoinInput}
    (hm : Mid L H t l Ws t1 (l1.map backIn)) {W : World} {w : Wallets} (hw : ∀ ci ∈ l, ∀ co, ci.parent = some co → (∃ co' ∈ walletsSpendable w, co'.id = ci.parentId) ∧
      ∀ co' ∈ walletsSpendable w, co'.id = ci.parentId → co'.condition = co.condition) :
    ∃ t2 l2, W.complete w t1 = .ok t2 ∧ Mid L H t l Ws t2 l2 ∧ Parents l l2 := by
  obtain ⟨hplain, hleg, -⟩ := kind_facts hm.kind hm.fits
  have hkp : ∀ ci : CoinInput, (match w.known.find? fun p => p.1 = ci.parentId with
      | some p => { ci with parent := some p.2 }
      | none => ci : CoinInput).parentId = ci.parentId ∧ (match w.known.find? fun p => p.1 = ci.parentId with
      | some p => { ci with parent := some p.2 }
      | none => ci : CoinInput).fulfillment = ci.fulfillment := fun ci => by split <;> exact ⟨rfl, rfl⟩
  have hget : ∀ (i : Nat) (ci2 : CoinInput), (knowParents w.known (l1.map backIn))[i]? = some ci2 → ∃ ci1, (l1.map backIn)[i]? = some ci1 ∧ ci1.parent = none ∧
      ci2 = (match w.known.find? fun p => p.1 = ci1.parentId with
      | some p => { ci1 with parent := some p.2 }
      | none => ci1 : CoinInput) := fun i ci2 h => by
    unfold knowParents at h
    rw [List.getElem?_map] at h
    obtain ⟨ci1, h1, h2⟩ := Option.map_eq_some_iff.mp h
    refine ⟨ci1, h1, ?_, h2.symm⟩
    rw [List.getElem?_map] at h1
    obtain ⟨cx, -, rfl⟩ := Option.map_eq_some_iff.mp h1
    rfl
  have e : t1.knowParents w.known = withInputs t1 (knowParents w.known (l1.map backIn)) := by
    have hi := hm.inputs
    rcases hm.kind with ⟨v, rfl, -⟩ | ⟨v, rfl⟩
    · have hi : v.coinInputs = l1.map backIn := Option.some.inj hi
      simp only [Tx.knowParents, withInputs, hi]
    · have hi : v.coinInputs = l1.map backIn := Option.some.inj hi
      simp only [Tx.knowParents, withInputs, hi]
  refine ⟨withInputs t1 (knowParents w.known (l1.map backIn)), _, ?_, ⟨withInputs_kind hm.kind _, withInputs_full hm.kind hm.full fun ci h => ?_,
    withInputs_fits hm.fits ⟨?_, fun ci h => ?_⟩, hm.same.trans (e ▸ knowParents_same _ t1 hleg), withInputs_coins hplain _, ?_, fun i ci ci2 h0 h2 => ?_⟩, fun i ci ci2 h0 h2 => ?_⟩
  · unfold World.complete
    rw [hm.inputs]
    show W.knowMint _ = _
    rw [e]
    rcases hm.kind with ⟨v, rfl, -⟩ | ⟨v, rfl⟩ <;> rfl
  · obtain ⟨i, hi⟩ := List.mem_iff_getElem?.mp h
    obtain ⟨ci1, h1, -, rfl⟩ := hget i ci hi
    have := full_inputs hm.kind hm.full hm.inputs ci1 (List.mem_of_getElem? h1)
    exact ⟨by rw [(hkp ci1).1]; exact this.1, by rw [(hkp ci1).2]; exact this.2⟩
  · show (knowParents _ _).length ≤ _
    unfold knowParents
    rw [List.length_map]; exact (inputs_fit hm.fits hm.inputs).1
  · obtain ⟨i, hi⟩ := List.mem_iff_getElem?.mp h
    obtain ⟨ci1, h1, -, rfl⟩ := hget i ci hi
    have := (inputs_fit hm.fits hm.inputs).2 ci1 (List.mem_of_getElem? h1)
    exact ⟨by rw [(hkp ci1).1]; exact this.1, by rw [(hkp ci1).2]; exact this.2⟩
  · unfold knowParents
    rw [List.length_map]; exact hm.length
  · obtain ⟨ci1, h1, -, rfl⟩ := hget i ci2 h2
    rw [(hkp ci1).1, (hkp ci1).2]
    exact hm.carries i ci ci1 h0 h1
  · obtain ⟨ci1, h1, hn, rfl⟩ := hget i ci2 h2
    have hmem := List.mem_of_getElem? h0
    obtain ⟨-, co, os, n, hco, -⟩ := hj.multi ci hmem
    obtain ⟨⟨co', k1, k2⟩, k3⟩ := hw ci hmem co hco
    have hid := (hm.carries i ci ci1 h0 h1).1
    cases hf : w.known.find? fun p => p.1 = ci1.parentId with
    | none =>
      have : ci.parentId ∈ (putAll (walletsSpendable w) []).map (·.1) := putAll_keys.2 (.inr ⟨co', k1, k2⟩)
      rw [← known_eq] at this
      obtain ⟨p, hp1, hp2⟩ := List.mem_map.1 this
      exact absurd (by simp [hp2, hid]) (List.find?_eq_none.mp hf p hp1)
    | some p =>
      refine ⟨co, p.2, hco, rfl, ?_⟩
      have g1 := List.find?_some hf
      have g2 := List.mem_of_find?_eq_some hf
      rw [known_eq] at g2
      rcases putAll_mem g2 with g2 | ⟨g2, g3⟩
      · cases g2
      · exact k3 p.2 g2 (by rw [← g3, ← hid]; simpa using g1)

/-- The next wallet. -/
theorem next_mid {L : IpLib} (hL : LawfulIp L) {H : Bytes → Bytes} (hH : Digest32 H) {t : Tx} {l : List CoinInput} (hj : Joint L t l) {Ws : List World} {W : World}
    (ht : ∀ W' ∈ Ws ++ [W], TakesPart H l W') (hs : Separate H l (Ws ++ [W])) {t1 : Tx} {l1 : List CoinInput} (hm : Mid L H t l Ws t1 l1)
    (hn : Ws ≠ [] → ¬ Enough Ws l) : ∃ t2 l2, Mid L H t l (Ws ++ [W]) t2 l2 ∧
      (Enough (Ws ++ [W]) l → (handed L W t1).posted = [t2]) ∧ (¬ Enough (Ws ++ [W]) l → ∃ b, handed L W t1 = ⟨[], .ok (t2, b, false)⟩) := by
  obtain ⟨hWH, hk, w, hw, hkn⟩ := ht W (by simp)
  obtain ⟨j, ta, hj1, hj2, ma⟩ := mid_read hH hm
  obtain ⟨tb, lb, hc, mb, pb⟩ := mid_known hj ma (W := W) hkn
  obtain ⟨rs, t2, l2, n, b, r1, r2, r3, r4, r5, r6⟩ := sign_mid hL hH hj mb pb (fun W' h => ⟨(ht W' h).hash, (ht W' h).keys⟩) hs
  have hrun : handed L W t1 = if rs.length = 0 then ⟨[], .ok (tb, false, false)⟩ else W.signSome w tb rs true := by
    unfold handed World.jsonSign World.transactionSign
    rw [hWH]
    simp only [hj1, hj2, hw, hc, r1, Outcome.ofRes]
  by_cases e : rs = []
  · subst e
    obtain ⟨g1, g2⟩ := r6 rfl
    have hne : ¬ Enough (Ws ++ [W]) l := fun h => hn g1 (g2 h)
    cases r2
    exact ⟨tb, l2, r5, fun h => absurd h hne, fun _ => ⟨false, hrun⟩⟩
  · have hlen : rs.length ≠ 0 := by simpa using e
    rw [if_neg hlen] at hrun
    refine ⟨t2, l2, r5, fun h => ?_, fun h => ⟨decide (0 < n), ?_⟩⟩
    · rw [hrun]; unfold World.signSome; simp only [r2, Outcome.ofRes, r3, r4.mpr h]; rfl
    · have : b = false := by cases b; rfl; exact absurd (r4.mp rfl) h
      rw [hrun]; unfold World.signSome; simp only [r2, Outcome.ofRes, r3, this]; rfl

theorem circulated_mid {L : IpLib} (hL : LawfulIp L) {H : Bytes → Bytes} (hH : Digest32 H) {t : Tx} {l : List CoinInput} (hj : Joint L t l) {Ws : List World} {t' : Tx}
    (hc : Circulated L t Ws t') : (∀ W ∈ Ws, TakesPart H l W) → Separate H l Ws → (∃ l', Mid L H t l Ws t' l') ∧ (Ws ≠ [] → ¬ Enough Ws l) := by
  induction hc with
  | unsigned => exact fun _ _ => ⟨⟨l, (mid_start hj).1⟩, fun h => absurd rfl h⟩
  | made W w t' hp hr =>
    intro ht hs
    obtain ⟨hWH, hk, -⟩ := ht W (by simp)
    obtain ⟨m0, p0⟩ := mid_start (H := H) hj
    obtain ⟨rs, t2, l2, n, b, r1, r2, r3, r4, r5, r6⟩ := sign_mid (Ws := []) (W := W) hL hH hj m0 p0 (fun W' h => ⟨(ht W' h).hash, (ht W' h).keys⟩) hs
    have hlen : rs.length ≠ 0 := fun e => by
      have : rs = [] := by simpa using e
      exact (r6 this).1 rfl
    have hrun : W.signSubmit w t = W.submit w t2 := by
      unfold World.signSubmit World.signNew
      simp only [hWH, r1, bind, Except.bind, if_neg hlen, r2, pure, Except.pure, Outcome.ofRes]
    rw [hrun] at hp hr
    unfold World.submit at hp hr
    simp only [r3, Outcome.ofRes] at hp hr
    cases b with
    | true => simp at hp
    | false =>
      simp at hr
      subst hr
      exact ⟨⟨l2, r5⟩, fun _ h => by have := r4.mpr h; cases this⟩
  | next Ws W t' t'' b hc hp hr ih =>
    intro ht hs
    have hs' : Separate H l Ws := (List.pairwise_append.mp hs).1
    obtain ⟨⟨l', m⟩, hn⟩ := ih (fun W' h => ht W' (by simp [h])) hs'
    obtain ⟨t2, l2, m2, g1, g2⟩ := next_mid hL hH hj ht hs m hn
    have hne : ¬ Enough (Ws ++ [W]) l := fun h => by rw [g1 h] at hp; cases hp
    obtain ⟨b', g⟩ := g2 hne
    rw [g] at hr
    cases hr
    exact ⟨⟨l2, m2⟩, fun _ => hne⟩

/-! ## C126 -/

/-- **C126** (signatures). However the payment is handed around among wallets that know the spent outputs and have no owner's key in common, what the last of them
returns is the same payment with exactly one valid signature of each owner whose key is in one of the wallets; the wallets cannot make enough of them. -/
theorem C126_signatures (L : IpLib) (hL : LawfulIp L) (H : Bytes → Bytes) (hH : Digest32 H) (t t' : Tx) (l : List CoinInput) (hj : Joint L t l) (Ws : List World)
    (ht : ∀ W ∈ Ws, TakesPart H l W) (hs : Separate H l Ws) (hc : Circulated L t Ws t') : SignedByAll H t l Ws t' ∧ (Ws ≠ [] → ¬ Enough Ws l) := by
  obtain ⟨⟨l', m⟩, h⟩ := circulated_mid hL hH hj hc ht hs
  exact ⟨m.all, h⟩

/-- **C126** (the next wallet). The wallet that completes the required signatures of all inputs submits the payment, signed by all; any other returns it with its
signatures added. -/
theorem C126_next (L : IpLib) (hL : LawfulIp L) (H : Bytes → Bytes) (hH : Digest32 H) (t t' : Tx) (l : List CoinInput) (hj : Joint L t l) (Ws : List World) (W : World)
    (ht : ∀ W' ∈ Ws ++ [W], TakesPart H l W') (hs : Separate H l (Ws ++ [W])) (hc : Circulated L t Ws t') :
    ∃ t'', SignedByAll H t l (Ws ++ [W]) t'' ∧ (Enough (Ws ++ [W]) l → (handed L W t').posted = [t'']) ∧
      (¬ Enough (Ws ++ [W]) l → ∃ b, handed L W t' = ⟨[], .ok (t'', b, false)⟩) := by
  obtain ⟨⟨l', m⟩, hn⟩ := circulated_mid hL hH hj hc (fun W' h => ht W' (by simp [h])) (List.pairwise_append.mp hs).1
  obtain ⟨t2, l2, m2, g1, g2⟩ := next_mid hL hH hj ht hs m hn
  exact ⟨t2, m2.all, g1, g2⟩

/-- **C126** (submission). If the wallets have enough owners' keys together, then in whatever order the payment is handed around among them, it is submitted by the first one
with which the signatures suffice, with the signatures of all so far. -/
theorem C126_submitted (L : IpLib) (hL : LawfulIp L) (H : Bytes → Bytes) (hH : Digest32 H) (t : Tx) (l : List CoinInput) (hj : Joint L t l) (Ws : List World) (hne : Ws ≠ [])
    (ht : ∀ W ∈ Ws, TakesPart H l W) (hs : Separate H l Ws) (he : Enough Ws l) :
    ∃ Ws1 W Ws2 t' t'', Ws = Ws1 ++ [W] ++ Ws2 ∧ Circulated L t Ws1 t' ∧ (handed L W t').posted = [t''] ∧ SignedByAll H t l (Ws1 ++ [W]) t'' ∧ Enough (Ws1 ++ [W]) l ∧
      (Ws1 ≠ [] → ¬ Enough Ws1 l) := by
  have key : ∀ (a b : List World) (t' : Tx), Ws = a ++ b → Circulated L t a t' → b ≠ [] ∨ a ≠ [] →
      ∃ Ws1 W Ws2 t' t'', Ws = Ws1 ++ [W] ++ Ws2 ∧ Circulated L t Ws1 t' ∧ (handed L W t').posted = [t''] ∧ SignedByAll H t l (Ws1 ++ [W]) t'' ∧ Enough (Ws1 ++ [W]) l ∧
      (Ws1 ≠ [] → ¬ Enough Ws1 l) := by
    intro a b
    induction b generalizing a with
    | nil =>
      intro t' e hc hab
      have ha : a ≠ [] := by rcases hab with h | h; exact absurd rfl h; exact h
      rw [List.append_nil] at e
      subst e
      exact absurd he ((C126_signatures L hL H hH t t' l hj Ws ht hs hc).2 ha)
    | cons W b ih =>
      intro t' e hc _
      have e' : Ws = (a ++ [W]) ++ b := by rw [e]; simp
      have ht' : ∀ W' ∈ a ++ [W], TakesPart H l W' := fun W' h => ht W' (by rw [e']; exact List.mem_append_left _ h)
      have hs' : Separate H l (a ++ [W]) := by rw [e'] at hs; exact (List.pairwise_append.mp hs).1
      obtain ⟨t'', g1, g2, g3⟩ := C126_next L hL H hH t t' l hj a W ht' hs' hc
      by_cases hen : Enough (a ++ [W]) l
      · exact ⟨a, W, b, t', t'', e', hc, g2 hen, g1, hen,
          (C126_signatures L hL H hH t t' l hj a (fun W' h => ht' W' (by simp [h])) (List.pairwise_append.mp hs').1 hc).2⟩
      · obtain ⟨b', g⟩ := g3 hen
        exact ih (a ++ [W]) t'' e' (.next a W t' t'' b' hc (by rw [g]) (by rw [g])) (.inr (by simp))
  exact key [] Ws t rfl .unsigned (.inl hne)

/-! ## A case that meets the hypotheses -/

/-- The wallet of the owner of a key, which knows two shared outputs. -/
def ownerWorld (k : PublicKey) : World :=
  { liveWorld with
    keys := { seed := [], pairs := [((addrOf k).str toyHash, k)], primary := (addrOf k).str toyHash }
    balance := .ok (walletsRun toyHash [.chain 1000 1000, .report coinM true false, .report coinML true false]) }

/-- A payment of 6.9 TFT from these outputs, each of which requires the signatures of both owners. -/
def sharedInputs : List CoinInput := [⟨coinM.id, .multi [], some coinM⟩, ⟨coinML.id, .multi [], some coinML⟩]
@[inherit_doc sharedInputs]
def sharedPay : Tx := .v1 { coinInputs := sharedInputs, coinOutputs := [⟨⟨some ⟨false, 69, -1⟩⟩, .unlockHash (addrOf key1), ⟨[]⟩⟩], minerFees := [demoWorld.fee] }

theorem shared_joint : Joint toyIp sharedPay sharedInputs := by
  have haddr : FullAddress (addrOf key1) ∧ FullAddress (addrOf key2) := by unfold FullAddress; decide +kernel
  have hown : ∀ ci ∈ sharedInputs, ownersIn ci = [addrOf key1, addrOf key2] := by
    intro ci h
    simp only [sharedInputs, List.mem_cons, List.not_mem_nil, or_false] at h
    rcases h with rfl | rfl <;> rfl
  have hamt : SaneAmount ⟨some ⟨false, 69, -1⟩⟩ ∧ SaneAmount demoWorld.fee := ⟨⟨⟨rfl, by decide⟩, by decide⟩, ⟨rfl, by decide⟩, by decide⟩
  have hfew : ∀ (ci : CoinInput), ci ∈ sharedInputs → ci.parentId.value.length = 32 ∧ ci.fulfillment = .multi [] := by
    intro ci h
    simp only [sharedInputs, List.mem_cons, List.not_mem_nil, or_false] at h
    rcases h with rfl | rfl <;> exact ⟨by decide, rfl⟩
  refine ⟨.inl ⟨_, rfl, rfl⟩, ⟨rfl, fun ci h => ⟨(hfew ci h).1, by rw [(hfew ci h).2]; intro p hp; cases hp⟩, ?_, (fun x h => by cases h), (fun x h => by cases h), ?_⟩,
    ⟨rfl, ⟨by show sharedInputs.length ≤ 2 ^ 20; decide, fun ci h => ⟨Nat.le_of_eq (hfew ci h).1, by rw [(hfew ci h).2]; exact ⟨Nat.zero_le _, fun p hp => by cases hp⟩⟩⟩,
      ⟨by show (1 : Nat) ≤ 2 ^ 20; decide, ?_⟩, ⟨Nat.zero_le _, fun x h => by cases h⟩, ⟨Nat.zero_le _, fun x h => by cases h⟩, ⟨by show (1 : Nat) ≤ 2 ^ 20; decide, ?_⟩, Nat.zero_le _⟩, rfl,
    by simp [sharedInputs], fun ci h => ?_, fun ci h => ?_⟩
  · intro x h
    rw [List.mem_singleton.1 h]
    exact ⟨hamt.1, .inl ⟨by decide, haddr.1⟩⟩
  · intro x h
    rw [List.mem_singleton.1 h]; exact hamt.2
  · intro x h
    rw [List.mem_singleton.1 h]
    exact ⟨⟨hamt.1.1, Nat.lt_of_lt_of_le hamt.1.2 (by decide)⟩, Nat.le_of_eq haddr.1⟩
  · intro x h
    rw [List.mem_singleton.1 h]; exact ⟨hamt.2.1, Nat.lt_of_lt_of_le hamt.2.2 (by decide)⟩
  · refine ⟨(hfew ci h).2, ?_⟩
    simp only [sharedInputs, List.mem_cons, List.not_mem_nil, or_false] at h
    rcases h with rfl | rfl
    · exact ⟨_, _, _, rfl, rfl⟩
    · exact ⟨_, _, _, rfl, rfl⟩
  · rw [hown ci h]
    refine ⟨by simp, by decide +kernel, by show (2 : Nat) ≤ 2 ^ 20; decide, fun u hu => ?_⟩
    simp only [List.mem_cons, List.not_mem_nil, or_false] at hu
    rcases hu with rfl | rfl
    · exact ⟨haddr.1, by decide⟩
    · exact ⟨haddr.2, by decide⟩

theorem owner_part {k : PublicKey} (hf : FullKey k) (ha : k.unlockhash toyHash = .ok (addrOf k)) : TakesPart toyHash sharedInputs (ownerWorld k) := by
  have hl : ∀ a x, (ownerWorld k).keys.lookup a = some x → a = (addrOf k).str toyHash ∧ x = k := by
    intro a x h
    simp only [Keys.lookup, ownerWorld, List.find?_cons] at h
    split at h
    · rename_i h2
      cases h; exact ⟨(of_decide_eq_true h2).symm, rfl⟩
    · cases h
  refine ⟨rfl, ⟨fun a x h => ?_, fun a x h => ?_, live_keys.sig⟩, _, rfl, fun ci hci co hco => ?_⟩
  · obtain ⟨rfl, rfl⟩ := hl a x h; exact ⟨_, ha, rfl⟩
  · obtain ⟨rfl, rfl⟩ := hl a x h; exact hf
  · have hs : walletsSpendable (walletsRun toyHash [.chain 1000 1000, .report coinM true false, .report coinML true false]) = [coinM, coinML] := by decide +kernel
    rw [hs]
    simp only [sharedInputs, List.mem_cons, List.not_mem_nil, or_false] at hci
    rcases hci with rfl | rfl <;> cases hco
    · exact ⟨⟨coinM, by simp, rfl⟩, by simp [coinM, coinML]⟩
    · exact ⟨⟨coinML, by simp, rfl⟩, by simp [coinM, coinML]⟩

/-- The two owners' wallets meet the hypotheses of `C126_submitted`; one of them alone cannot complete the payment. -/
example : (∀ W ∈ [ownerWorld key1, ownerWorld key2], TakesPart toyHash sharedInputs W) ∧ Separate toyHash sharedInputs [ownerWorld key1, ownerWorld key2] ∧
    Enough [ownerWorld key1, ownerWorld key2] sharedInputs ∧ ¬ Enough [ownerWorld key2] sharedInputs := by
  refine ⟨fun W h => ?_, ?_, ?_, ?_⟩
  · simp only [List.mem_cons, List.not_mem_nil, or_false] at h
    rcases h with rfl | rfl
    · exact owner_part (rfl : key1.hash.value.length = 32) (by decide +kernel)
    · exact owner_part (rfl : key2.hash.value.length = 32) (by decide +kernel)
  · refine List.pairwise_cons.mpr ⟨fun W h ci hci u hu => ?_, List.pairwise_singleton _ _⟩
    cases List.mem_singleton.mp h
    have : u = addrOf key1 ∨ u = addrOf key2 := by
      simp only [sharedInputs, List.mem_cons, List.not_mem_nil, or_false] at hci
      rcases hci with rfl | rfl <;> simpa [ownersIn, coinM, coinML, Condition.unwrap] using hu
    rcases this with rfl | rfl
    · exact .inr (by decide +kernel)
    · exact .inl (by decide +kernel)
  · intro ci hci
    simp only [sharedInputs, List.mem_cons, List.not_mem_nil, or_false] at hci
    rcases hci with rfl | rfl
    · show (2 : Int) ≤ ((([ownerWorld key1, ownerWorld key2]).flatMap fun W => (heldKeys W [addrOf key1, addrOf key2]).map fun k => (W, k)).length : Int)
      simp only [List.length_flatMap, List.length_map]; decide +kernel
    · show (2 : Int) ≤ ((([ownerWorld key1, ownerWorld key2]).flatMap fun W => (heldKeys W [addrOf key1, addrOf key2]).map fun k => (W, k)).length : Int)
      simp only [List.length_flatMap, List.length_map]; decide +kernel
  · intro h
    have := h ⟨coinM.id, .multi [], some coinM⟩ (by simp [sharedInputs])
    have e : ¬ (2 : Int) ≤ ((([ownerWorld key2]).flatMap fun W => (heldKeys W [addrOf key1, addrOf key2]).map fun k => (W, k)).length : Int) := by
      simp only [List.length_flatMap, List.length_map]; decide +kernel
    exact e this
/-- The second owner's wallet returns the payment, the first owner's submits it. -/
example : ((handed toyIp (ownerWorld key2) sharedPay).posted.length, (handed toyIp (ownerWorld key2) sharedPay).result.toOption.map fun r =>
    (r.2.2, (handed toyIp (ownerWorld key1) r.1).posted.length)) = (0, some (false, 1)) := by decide +kernel

/-! ## Outputs a wallet does not know -/

theorem bare_parents {t t' : Tx} (h : bare t' = bare t) {l : List CoinInput} (hl : t.coinInputs = some l) :
    ∃ l', t'.coinInputs = some l' ∧ l'.map CoinInput.parent = l.map CoinInput.parent := by
  have := bare_inputs h
  rw [hl, Option.map_some] at this
  obtain ⟨l', h1, h2⟩ := Option.map_eq_some_iff.mp this
  refine ⟨l', h1, ?_⟩
  have := congrArg (List.map CoinInput.parent) h2
  rw [List.map_map, List.map_map] at this
  exact this

/-- **C126** (unknown outputs). A wallet does not submit a transaction one of whose inputs spends an output neither the transaction nor the wallet knows, whatever signatures it
carries. -/
theorem C126_unknown (W : World) (w : Wallets) (hw : W.balance = .ok w) (t : Tx) (l : List CoinInput) (ci : CoinInput) (hl : t.coinInputs = some l) (hci : ci ∈ l)
    (hp : ci.parent = none) (hn : ∀ co ∈ walletsSpendable w, co.id ≠ ci.parentId) (submit : Bool) : (W.transactionSign t submit).posted = [] := by
  rcases transactionSign_spec _ rfl (W := W) (t := t) (submit := submit) with ⟨e, h⟩ | ⟨w', t1, rs, h1, h2, h3, ⟨rfl, h⟩ | ⟨-, t2, n, ok, h4, h5, ⟨h6, h⟩ | ⟨h6, h⟩⟩⟩
  · rw [h]
  · rw [h]
  · rw [hw] at h1; cases h1
    obtain ⟨l0, g1, g2⟩ := complete_inputs h2
    rw [hl] at g1; cases g1
    have hmem : none ∈ (knowParents w.known l).map CoinInput.parent := by
      refine List.mem_map.mpr ⟨ci, List.mem_map.mpr ⟨ci, hci, ?_⟩, hp⟩
      cases hf : w.known.find? fun p => p.1 = ci.parentId with
      | none => rfl
      | some p =>
        have e1 := List.find?_some hf
        have e2 := List.mem_of_find?_eq_some hf
        rw [known_eq] at e2
        rcases putAll_mem e2 with e2 | ⟨e2, e3⟩
        · cases e2
        · exact absurd (by rw [← e3]; simpa using e1) (hn p.2 e2)
    obtain ⟨l2, k1, k2⟩ := bare_parents (signAll_bare h4) g2
    rw [← k2] at hmem
    obtain ⟨c2, m1, m2⟩ := List.mem_map.mp hmem
    have hok : ok = true := by cases submit <;> simp at h6; exact h6
    subst hok
    obtain ⟨l3, q1, q2⟩ := ((C43_is_fulfilled_partial t2).1.mp h5).2
    rw [k1] at q1; cases q1
    have := q2 c2 m1
    simp [CoinInput.isFulfilled, m2] at this
  · rw [h]

/-- Personal outputs of the owners of `key1` and of `key2`, whose wallets know their own. -/
def coinK : CoinOutput := ⟨⟨some ⟨false, 6, 0⟩⟩, .unlockHash (addrOf key2), ⟨List.replicate 32 8⟩⟩
@[inherit_doc coinK]
def personWorld (k : PublicKey) (co : CoinOutput) : World := { ownerWorld k with balance := .ok (walletsRun toyHash [.chain 1000 1000, .report co true false]) }
theorem person_keys {k : PublicKey} {co : CoinOutput} (h : GoodKeys (ownerWorld k)) : GoodKeys (personWorld k co) := by
  obtain ⟨h1, h2, h3⟩ := h
  exact ⟨h1, h2, h3⟩
/-- A payment from both outputs, not signed by anybody. -/
def twoPersons : Tx := .v1 {
  coinInputs := [⟨coinA.id, .single .default none, some coinA⟩, ⟨coinK.id, .single .default none, some coinK⟩],
  coinOutputs := [⟨⟨some ⟨false, 69, -1⟩⟩, .unlockHash (addrOf key2), ⟨[]⟩⟩], minerFees := [demoWorld.fee] }
/-- The fulfillments of the coin inputs. -/
def fulfillmentsOf (t : Tx) : List Fulfillment := (t.coinInputs.getD []).map (·.fulfillment)

/-- A single signature fulfillment, in parts. -/
def singleParts : Fulfillment → Option (PublicKey × Option (Bytes × Bool))
  | .single k s => some (k, s.map fun x => (x.value, x.asArray))
  | _ => none
instance partsEq1 : DecidableEq (Bytes × Bool) := instDecidableEqProd
instance partsEq2 : DecidableEq (Option (Bytes × Bool)) := inferInstance
instance partsEq3 : DecidableEq (PublicKey × Option (Bytes × Bool)) := instDecidableEqProd
instance partsEq4 : DecidableEq (Option (PublicKey × Option (Bytes × Bool))) := inferInstance
instance partsEq5 : DecidableEq (List (Option (PublicKey × Option (Bytes × Bool)))) := instDecidableEqList
instance partsEq6 : DecidableEq (Bool × List (Option (PublicKey × Option (Bytes × Bool))) × Nat × Nat) := inferInstance
instance partsEq7 : DecidableEq (Option (Bool × List (Option (PublicKey × Option (Bytes × Bool))) × Nat × Nat)) := inferInstance
instance partsEq8 : DecidableEq (Option (Bool × Nat × Option (Bool × List (Option (PublicKey × Option (Bytes × Bool))) × Nat × Nat))) := inferInstance
theorem singles_of {l : List Fulfillment} {k k' : PublicKey} {s s' : Signature}
    (h : l.map singleParts = [some (k, some (s.value, s.asArray)), some (k', some (s'.value, s'.asArray))]) : l = [.single k (some s), .single k' (some s')] := by
  have one : ∀ {f : Fulfillment} {k : PublicKey} {s : Signature}, singleParts f = some (k, some (s.value, s.asArray)) → f = .single k (some s) := by
    intro f k s h
    cases f with
    | single k0 s0 =>
      cases s0 with
      | none => simp [singleParts] at h
      | some s0 => obtain ⟨a, b⟩ := s0; obtain ⟨c, d⟩ := s; simp [singleParts] at h; obtain ⟨rfl, rfl, rfl⟩ := h; rfl
    | _ => simp [singleParts] at h
  obtain ⟨a, l1, rfl, ha, h⟩ := List.map_eq_cons_iff.mp h
  obtain ⟨b, l2, rfl, hb, h⟩ := List.map_eq_cons_iff.mp h
  rw [List.map_eq_nil_iff.mp h, one ha, one hb]

theorem signed_at {W : World} {t : Tx} {i : Nat} {k : PublicKey} (h : (t.preimage W.H (.coin i) k).toOption.isSome = true) :
    SignedBy W.H t i (W, k) ⟨k, ⟨sigAt W t i k, false⟩⟩ := by
  cases e : t.preimage W.H (.coin i) k with
  | error _ => rw [e] at h; cases h
  | ok b => exact ⟨rfl, b, e, by simp only [sigAt, e]⟩

/-- **C126** (finding). For a payment from personal outputs of several owners it is different: every wallet knows its own outputs only, so both owners sign and none of the
wallets submits the completely signed payment, at whatever turn. -/
theorem C126_personal_false : ∃ (L : IpLib) (W W' : World) (t t2 : Tx) (s s' : Signature), LawfulIp L ∧ GoodKeys W ∧ GoodKeys W' ∧ Circulated L t [W, W'] t2 ∧
    fulfillmentsOf t2 = [.single key1 (some s), .single key2 (some s')] ∧ SignedBy W.H t 0 (W, key1) ⟨key1, s⟩ ∧ SignedBy W'.H t 1 (W', key2) ⟨key2, s'⟩ ∧
    (handed L W t2).posted = [] ∧ (handed L W' t2).posted = [] := by
  have hk1 : GoodKeys (personWorld key1 coinA) := person_keys (owner_part (k := key1) (rfl : key1.hash.value.length = 32) (by decide +kernel)).keys
  have hk2 : GoodKeys (personWorld key2 coinK) := person_keys (owner_part (k := key2) (rfl : key2.hash.value.length = 32) (by decide +kernel)).keys
  have h1 : (handed toyIp (personWorld key1 coinA) twoPersons).posted.length = 0 ∧
      (handed toyIp (personWorld key1 coinA) twoPersons).result.toOption.map (fun r => (r.2.2, (handed toyIp (personWorld key2 coinK) r.1).posted.length,
        (handed toyIp (personWorld key2 coinK) r.1).result.toOption.map fun q => (q.2.2, (fulfillmentsOf q.1).map singleParts, (handed toyIp (personWorld key1 coinA) q.1).posted.length,
          (handed toyIp (personWorld key2 coinK) q.1).posted.length))) =
      some (false, 0, some (false, [some (key1, some (sigAt (personWorld key1 coinA) twoPersons 0 key1, false)), some (key2, some (sigAt (personWorld key2 coinK) twoPersons 1 key2, false))], 0, 0)) := by
    refine ⟨by decide +kernel, ?_⟩
    decide +kernel
  obtain ⟨g1, g2⟩ := h1
  cases e1 : (handed toyIp (personWorld key1 coinA) twoPersons).result with
  | error _ => rw [e1] at g2; cases g2
  | ok r =>
    obtain ⟨t1, b1, c1⟩ := r
    rw [e1] at g2
    simp only [Except.toOption, Option.map_some, Option.some.injEq, Prod.mk.injEq] at g2
    obtain ⟨rfl, g3, g4⟩ := g2
    cases e2 : (handed toyIp (personWorld key2 coinK) t1).result with
    | error _ => rw [e2] at g4; cases g4
    | ok q =>
      obtain ⟨t2, b2, c2⟩ := q
      rw [e2] at g4
      simp only [Option.map_some, Option.some.injEq, Prod.mk.injEq] at g4
      obtain ⟨rfl, g5, g6, g7⟩ := g4
      exact ⟨toyIp, personWorld key1 coinA, personWorld key2 coinK, twoPersons, t2, ⟨_, false⟩, ⟨_, false⟩, toyIp_lawful, hk1, hk2,
        .next [personWorld key1 coinA] _ t1 t2 b2 (.next [] _ twoPersons t1 b1 .unsigned (List.length_eq_zero_iff.mp g1) e1) (List.length_eq_zero_iff.mp g3) e2, singles_of g5,
        signed_at (by decide +kernel), signed_at (by decide +kernel), List.length_eq_zero_iff.mp g6, List.length_eq_zero_iff.mp g7⟩

end TF.Props
