import Verif.Spec.Sharing
import Verif.Props.Live
import Verif.Props.Client
import Verif.Props.Signing
/-! # C114: transactions are separate objects, unless inputs are assigned from one to another -/
namespace TF.Props
open TF TF.Spec

/-! ## Helpers -/

theorem alloc_store : ∀ (l : List CoinInput) (s : List Fulfillment), (alloc s l).1 = s ++ l.map (·.fulfillment)
  | [], s => by simp [alloc]
  | ci :: l, s => by simp [alloc, alloc_store l]

theorem alloc_get : ∀ (l : List CoinInput) (s : List Fulfillment) (a : Nat),
    (alloc s l).2[a]? = l[a]?.map fun ci => ⟨ci.parentId, s.length + a, ci.parent⟩
  | [], s, a => by simp [alloc]
  | ci :: l, s, 0 => by simp [alloc]
  | ci :: l, s, a + 1 => by
    simp only [alloc, List.getElem?_cons_succ]
    rw [alloc_get l (s ++ [ci.fulfillment]) a]
    simp only [List.length_append, List.length_cons, List.length_nil]
    rw [show s.length + (0 + 1) + a = s.length + (a + 1) by omega]

theorem alloc_load (l : List CoinInput) (s : List Fulfillment) : (alloc s l).2.map (·.load (alloc s l).1) = l := by
  apply List.ext_getElem?
  intro a
  rw [List.getElem?_map, alloc_get, alloc_store]
  cases h : l[a]? with
  | none => rfl
  | some ci =>
    simp only [Option.map_some, InputObj.load, Option.some.injEq]
    rw [List.getD_eq_getElem?_getD, List.getElem?_append_right (by omega), show s.length + a - s.length = a by omega,
      List.getElem?_map, h]
    rfl

theorem put_eq (t : Tx) (l : List CoinInput) : t.putInputs l = withInputs t l := by cases t <;> rfl

/-- All references are to objects that exist. -/
def Bounded (n : Nat) (o : TxObj) : Prop := ∀ io ∈ o.ins.getD [], io.ref < n

theorem load_congr {s s' : List Fulfillment} {io : InputObj} (h : s'[io.ref]? = s[io.ref]?) : io.load s' = io.load s := by
  simp only [InputObj.load, List.getD_eq_getElem?_getD, h]

theorem view_congr {s s' : List Fulfillment} {o : TxObj} (h : ∀ io ∈ o.ins.getD [], s'[io.ref]? = s[io.ref]?) : o.view s' = o.view s := by
  unfold TxObj.view
  cases hi : o.ins with
  | none => rfl
  | some l =>
    simp only
    congr 1
    apply List.map_congr_left
    intro io hio
    exact load_congr (h io (by rw [hi]; exact hio))

theorem view_grow {s x : List Fulfillment} {o : TxObj} (h : Bounded s.length o) : o.view (s ++ x) = o.view s :=
  view_congr fun io hio => List.getElem?_append_left (h io hio)

/-- What is known of an object. -/
def Kind (o : TxObj) : Prop := (o.ins = none → o.base.coinInputs = none) ∧ (¬ Plain o.base → o.ins = some [])

theorem plain_inputs {t : Tx} (h : Plain t) (l : List CoinInput) : (withInputs t l).coinInputs = some l := by
  cases t <;> first | rfl | exact h.elim

theorem not_plain_inputs {t : Tx} (h : ¬ Plain t) : t.coinInputs = some [] := by
  cases t <;> first | rfl | exact absurd trivial h

theorem not_plain_with {t : Tx} (h : ¬ Plain t) (l : List CoinInput) : withInputs t l = t := by
  cases t <;> first | rfl | exact absurd trivial h

theorem setCoinInputs_kind {t t' : Tx} {l : List CoinInput} (h : t.setCoinInputs l = .ok t') : Plain t ∧ t' = withInputs t (copyInputs l) := by
  cases t <;> first | (cases h; exact ⟨trivial, rfl⟩) | cases h

theorem setCoinInputs_any (t : Tx) (l l' l'' : List CoinInput) {e : Err} (h : t.setCoinInputs l = .error e) :
    (withInputs t l').setCoinInputs l'' = .error e := by
  cases t <;> first | (cases h; rfl) | cases h

theorem setCoinInputs_ok {t t' : Tx} {l : List CoinInput} (h : t.setCoinInputs l = .ok t') (l' l'' : List CoinInput) :
    (withInputs t l').setCoinInputs l'' = .ok (withInputs t (copyInputs l'')) ∧ t.setCoinInputs l'' = .ok (withInputs t (copyInputs l'')) := by
  cases t <;> first | (cases h; exact ⟨rfl, rfl⟩) | cases h

theorem coinInputAdd_kind {t t' : Tx} {p : Hash} {f : Fulfillment} {par : Option CoinOutput} (h : t.coinInputAdd p f par = .ok t') :
    Plain t ∧ ∃ l, t.coinInputs = some l ∧ t' = withInputs t (l ++ [⟨p, f, par⟩]) := by
  cases t with
  | v146 v =>
    obtain ⟨sender, receiver, names, fee, ins, refund, s1, s2, k1, k2⟩ := v
    cases ins with
    | none => cases h
    | some l => cases h; exact ⟨trivial, l, rfl, rfl⟩
  | v210 v =>
    obtain ⟨key, sig, fee, ins, refund⟩ := v
    cases ins with
    | none => cases h
    | some l => cases h; exact ⟨trivial, l, rfl, rfl⟩
  | _ => first | (cases h; exact ⟨trivial, _, rfl, rfl⟩) | cases h

/-- The objects of a program without sharing are those of separate transactions. -/
structure Separate (h : Heap) (ts : List Tx) : Prop where
  len : h.txs.length = ts.length
  view : ∀ (j : Nat) (o : TxObj), h.txs[j]? = some o → ts[j]? = some (o.view h.store)
  bound : ∀ (j : Nat) (o : TxObj), h.txs[j]? = some o → Bounded h.store.length o
  inj : ∀ (j : Nat) (o : TxObj) (a : Nat) (io : InputObj) (j' : Nat) (o' : TxObj) (a' : Nat) (io' : InputObj), h.txs[j]? = some o → (o.ins.getD [])[a]? = some io → h.txs[j']? = some o' →
    (o'.ins.getD [])[a']? = some io' → io.ref = io'.ref → j = j' ∧ a = a'
  kind : ∀ (j : Nat) (o : TxObj), h.txs[j]? = some o → Kind o

theorem view_coinInputs {s : List Fulfillment} {o : TxObj} (hk : Kind o) : (o.view s).coinInputs = o.ins.map (·.map (·.load s)) := by
  unfold TxObj.view
  cases hi : o.ins with
  | none => exact hk.1 hi
  | some l =>
    simp only [Option.map_some]
    rw [put_eq]
    by_cases hp : Plain o.base
    · exact plain_inputs hp _
    · have := hk.2 hp
      rw [hi] at this
      cases this
      rw [not_plain_with hp, not_plain_inputs hp]
      rfl

theorem view_plain {s : List Fulfillment} {o : TxObj} : Plain (o.view s) ↔ Plain o.base := by
  unfold TxObj.view
  cases o.ins with
  | none => rfl
  | some l => simp only; cases o.base <;> rfl

theorem view_with {s : List Fulfillment} {o : TxObj} (l : List CoinInput) : withInputs (o.view s) l = withInputs o.base l := by
  unfold TxObj.view
  cases o.ins with
  | none => rfl
  | some l' => simp only [put_eq, withInputs_twice]

theorem view_set {s : List Fulfillment} {o : TxObj} (l : List InputObj) : ({ o with ins := some l } : TxObj).view s = withInputs o.base (l.map (·.load s)) := by
  simp only [TxObj.view, put_eq]

/-- A transaction with new inputs, made of objects nobody else has. -/
theorem separate_alloc {h : Heap} {ts : List Tx} (hs : Separate h ts) {j : Nat} {o : TxObj} (hj : h.txs[j]? = some o) (hp : Plain o.base)
    (keep : List InputObj) (hkeep : keep <+: o.ins.getD []) (l : List CoinInput) :
    Separate ⟨(alloc h.store l).1, h.txs.set j { o with ins := some (keep ++ (alloc h.store l).2) }⟩
      (ts.set j (withInputs o.base (keep.map (·.load h.store) ++ l))) := by
  have hjl : j < h.txs.length := (List.getElem?_eq_some_iff.1 hj).1
  have hsub : ∀ io ∈ keep, io ∈ o.ins.getD [] := fun io hio => hkeep.subset hio
  have hget : ∀ (a : Nat) (io : InputObj), keep[a]? = some io → (o.ins.getD [])[a]? = some io := by
    intro a io hio
    obtain ⟨r, hr⟩ := hkeep
    rw [← hr, List.getElem?_append_left (List.getElem?_eq_some_iff.1 hio).1]; exact hio
  have hst := alloc_store l h.store
  -- an input of the new list is an old one or a new one
  have hnew : ∀ (a : Nat) (io : InputObj), (keep ++ (alloc h.store l).2)[a]? = some io →
      keep[a]? = some io ∨ (h.store.length ≤ io.ref ∧ io.ref + keep.length = h.store.length + a ∧ io.ref < (alloc h.store l).1.length) := by
    intro a io hio
    by_cases ha : a < keep.length
    · rw [List.getElem?_append_left ha] at hio; exact .inl hio
    · rw [List.getElem?_append_right (by omega), alloc_get] at hio
      cases hl : l[a - keep.length]? with
      | none => rw [hl] at hio; cases hio
      | some ci =>
        rw [hl] at hio
        simp only [Option.map_some, Option.some.injEq] at hio
        subst hio
        have := (List.getElem?_eq_some_iff.1 hl).1
        refine .inr ⟨by simp, by simp only; omega, ?_⟩
        rw [hst]; simp; omega
  refine ⟨by simp [hs.len], ?_, ?_, ?_, ?_⟩
  · intro j' o' hj'
    rw [List.getElem?_set] at hj'
    split at hj'
    · rename_i e; subst e
      cases hj'
      rw [List.getElem?_set_self (by rw [← hs.len]; exact hjl), view_set, List.map_append, alloc_load]
      congr 3
      apply List.map_congr_left
      intro io hio
      exact (load_congr (by rw [hst, List.getElem?_append_left (hs.bound j o hj io (hsub io hio))])).symm
    · rename_i e
      rw [List.getElem?_set_ne e, hs.view j' o' hj', hst, view_grow (hs.bound j' o' hj')]
  · intro j' o' hj' io hio
    rw [List.getElem?_set] at hj'
    split at hj'
    · cases hj'
      obtain ⟨a, ha⟩ := List.mem_iff_getElem?.1 hio
      rcases hnew a io ha with h1 | ⟨-, -, h3⟩
      · have := hs.bound j o hj io (hsub io (List.mem_of_getElem? h1))
        rw [hst]; simp; omega
      · exact h3
    · have := hs.bound j' o' hj' io hio
      rw [hst]; simp; omega
  · -- the references are all different
    have split_at : ∀ (j' : Nat) (o' : TxObj) (a : Nat) (io : InputObj), (h.txs.set j { o with ins := some (keep ++ (alloc h.store l).2) })[j']? = some o' →
        (o'.ins.getD [])[a]? = some io →
        (∃ o'', h.txs[j']? = some o'' ∧ (o''.ins.getD [])[a]? = some io ∧ io.ref < h.store.length) ∨
        (j' = j ∧ h.store.length ≤ io.ref ∧ io.ref + keep.length = h.store.length + a) := by
      intro j' o' a io h1 h2
      rw [List.getElem?_set] at h1
      split at h1
      · rename_i e; subst e
        cases h1
        rcases hnew a io h2 with h3 | ⟨h3, h4, -⟩
        · exact .inl ⟨o, hj, hget a io h3, hs.bound j o hj io (hsub io (List.mem_of_getElem? h3))⟩
        · exact .inr ⟨rfl, h3, h4⟩
      · exact .inl ⟨o', h1, h2, hs.bound j' o' h1 io (List.mem_of_getElem? h2)⟩
    intro j1 o1 a1 io1 j2 o2 a2 io2 h1 h2 h3 h4 he
    rcases split_at j1 o1 a1 io1 h1 h2 with ⟨p1, x1, y1, z1⟩ | ⟨x1, y1, z1⟩ <;>
      rcases split_at j2 o2 a2 io2 h3 h4 with ⟨p2, x2, y2, z2⟩ | ⟨x2, y2, z2⟩
    · exact hs.inj j1 p1 a1 io1 j2 p2 a2 io2 x1 y1 x2 y2 he
    · omega
    · omega
    · exact ⟨by rw [x1, x2], by omega⟩
  · intro j' o' hj'
    rw [List.getElem?_set] at hj'
    split at hj'
    · cases hj'
      exact ⟨fun hh => (by cases hh), fun hh => absurd hp hh⟩
    · exact hs.kind j' o' hj'

theorem mapIdx_set (ts : List Tx) (j : Nat) (f : Tx → Tx) {t : Tx} (h : ts[j]? = some t) :
    (ts.mapIdx fun k t => if some j = some k then f t else t) = ts.set j (f t) := by
  apply List.ext_getElem?
  intro k
  rw [List.getElem?_mapIdx, List.getElem?_set]
  by_cases e : j = k
  · subst e; rw [h, if_pos rfl, if_pos (List.getElem?_eq_some_iff.1 h).1]; simp
  · have e' : ¬ some j = some k := fun h => e (Option.some.inj h)
    simp only [e, e', if_false]
    cases ts[k]? <;> rfl

theorem mapIdx_out (ts : List Tx) (j : Nat) (f : Tx → Tx) (h : ts.length ≤ j) :
    (ts.mapIdx fun k t => if some j = some k then f t else t) = ts := by
  apply List.ext_getElem?
  intro k
  rw [List.getElem?_mapIdx]
  by_cases e : j = k
  · subst e; rw [List.getElem?_eq_none h]; rfl
  · have e' : ¬ some j = some k := fun h => e (Option.some.inj h)
    simp only [e', if_false]
    cases ts[k]? <;> rfl

theorem set_get_self {ts : List Tx} {j : Nat} {t : Tx} (h : ts[j]? = some t) : ts.set j t = ts := by
  apply List.ext_getElem?
  intro k
  rw [List.getElem?_set]
  split
  · rename_i e; subst e; rw [if_pos (List.getElem?_eq_some_iff.1 h).1, h]
  · rfl

theorem separate_new {h : Heap} {ts : List Tx} (hs : Separate h ts) (H : Bytes → Bytes) (t : Tx) : Separate (h.step H (.new t)).1 (ts ++ [t]) := by
  have hlen := hs.len
  -- the last object, with references from the length of the store on
  have key : ∀ (s' : List Fulfillment) (o : TxObj), (∃ x, s' = h.store ++ x) → o.view s' = t → Bounded s'.length o → Kind o →
      (∀ (a : Nat) (io : InputObj), (o.ins.getD [])[a]? = some io → io.ref = h.store.length + a) → Separate ⟨s', h.txs ++ [o]⟩ (ts ++ [t]) := by
    rintro s' o ⟨x, rfl⟩ hv hb hk hr
    have get : ∀ (j : Nat) (o' : TxObj), (h.txs ++ [o])[j]? = some o' → h.txs[j]? = some o' ∨ (j = h.txs.length ∧ o' = o) := by
      intro j o' hj
      by_cases hl : j < h.txs.length
      · rw [List.getElem?_append_left hl] at hj; exact .inl hj
      · rw [List.getElem?_append_right (by omega)] at hj
        have hlt := (List.getElem?_eq_some_iff.1 hj).1
        simp at hlt
        have e : j = h.txs.length := by omega
        subst e
        simp at hj
        exact .inr ⟨rfl, hj.symm⟩
    refine ⟨by simp [hlen], ?_, ?_, ?_, ?_⟩
    · intro j o' hj
      rcases get j o' hj with h1 | ⟨rfl, rfl⟩
      · rw [List.getElem?_append_left (by rw [← hlen]; exact (List.getElem?_eq_some_iff.1 h1).1), hs.view j o' h1, view_grow (hs.bound j o' h1)]
      · rw [hlen, List.getElem?_append_right (by omega)]
        simp [hv]
    · intro j o' hj
      rcases get j o' hj with h1 | ⟨rfl, rfl⟩
      · intro io hio
        have := hs.bound j o' h1 io hio
        simp only [List.length_append]; omega
      · exact hb
    · intro j1 o1 a1 io1 j2 o2 a2 io2 h1 h2 h3 h4 he
      rcases get j1 o1 h1 with g1 | ⟨rfl, rfl⟩ <;> rcases get j2 o2 h3 with g2 | ⟨rfl, rfl⟩
      · exact hs.inj j1 o1 a1 io1 j2 o2 a2 io2 g1 h2 g2 h4 he
      · have := hs.bound j1 o1 g1 io1 (List.mem_of_getElem? h2)
        have := hr a2 io2 h4
        omega
      · have := hs.bound j2 o2 g2 io2 (List.mem_of_getElem? h4)
        have := hr a1 io1 h2
        omega
      · have := hr a1 io1 h2
        have := hr a2 io2 h4
        exact ⟨rfl, by omega⟩
    · intro j o' hj
      rcases get j o' hj with h1 | ⟨rfl, rfl⟩
      · exact hs.kind j o' h1
      · exact hk
  simp only [Heap.step]
  cases hc : t.coinInputs with
  | none =>
    refine key _ _ ⟨[], by simp⟩ rfl (by intro io hio; cases hio) ⟨fun _ => hc, fun hp => ?_⟩ (by intro a io hio; cases hio)
    rw [not_plain_inputs hp] at hc; cases hc
  | some l =>
    refine key _ _ ⟨_, alloc_store l h.store⟩ ?_ ?_ ⟨fun hh => (by cases hh), fun hp => ?_⟩ ?_
    · show t.putInputs _ = t
      rw [alloc_load, put_eq, withInputs_self hc]
    · intro io hio
      obtain ⟨a, ha⟩ := List.mem_iff_getElem?.1 hio
      simp only [Option.getD_some, alloc_get] at ha
      cases hl : l[a]? with
      | none => rw [hl] at ha; cases ha
      | some ci =>
        rw [hl] at ha; cases ha
        have := (List.getElem?_eq_some_iff.1 hl).1
        rw [alloc_store]; simp; omega
    · rw [not_plain_inputs hp] at hc; cases hc; rfl
    · intro a io ha
      simp only [Option.getD_some, alloc_get] at ha
      cases hl : l[a]? with
      | none => rw [hl] at ha; cases ha
      | some ci => rw [hl] at ha; cases ha; rfl

theorem sign_coin_with {H : Bytes → Bytes} {t : Tx} (hp : Plain t) {l : List CoinInput} (hl : t.coinInputs = some l) (i : Nat) (k : KeyArg) (sig : BVal) :
    (t.sign H (.coin i) k sig).1 = withInputs t (match l[i]? with
      | none => l
      | some ci => l.set i (ci.sign k sig).1) := by
  rw [(plain_sign hp hl i k sig).2.2.2]
  unfold modifyAt
  cases l[i]? <;> rfl

theorem sign_coin_none {H : Bytes → Bytes} {t : Tx} (h : t.coinInputs = none ∨ ¬ Plain t) (i : Nat) (k : KeyArg) (sig : BVal) :
    (t.sign H (.coin i) k sig).1 = t := by
  rcases h with h | h
  · cases t with
    | v146 v => have e : v.coinInputs = none := h; simp only [Tx.sign, e]
    | v210 v => have e : v.coinInputs = none := h; simp only [Tx.sign, e]
    | _ => cases h
  · cases t <;> first | rfl | exact absurd trivial h

theorem self146_inputs (H : Bytes → Bytes) (v : TxV146) (k : KeyArg) (sig : BVal) : (v.signSelf H k sig).1.coinInputs = v.coinInputs := by
  have key : ∀ (k : PublicKey) (v' : TxV146), v.signSelfRes H k sig = .ok v' → v'.coinInputs = v.coinInputs := by
    intro k v' h
    unfold TxV146.signSelfRes at h
    obtain ⟨u, -, h⟩ := bind_ok h
    obtain ⟨a, -, h⟩ := bind_ok h
    split at h
    · obtain ⟨s, -, h⟩ := bind_ok h; cases h; rfl
    · obtain ⟨b, -, h⟩ := bind_ok h
      split at h
      · obtain ⟨s, -, h⟩ := bind_ok h; cases h; rfl
      · cases h
  unfold TxV146.signSelf
  split
  · split
    · rename_i h; exact key _ _ h
    · rfl
  · rfl

/-- Signing anything but a coin input does not change the coin inputs. -/
theorem sign_noncoin {H : Bytes → Bytes} {t : Tx} {tgt : SigTarget} (h : ∀ i, tgt ≠ .coin i) (k : KeyArg) (sig : BVal) :
    (t.sign H tgt k sig).1.coinInputs = t.coinInputs ∧ (Plain (t.sign H tgt k sig).1 ↔ Plain t) := by
  cases tgt with
  | coin i => exact absurd rfl (h i)
  | stake i => cases t <;> exact ⟨rfl, Iff.rfl⟩
  | mint => cases t <;> exact ⟨rfl, Iff.rfl⟩
  | self s =>
    cases t with
    | v146 v => exact ⟨self146_inputs H v k sig, Iff.rfl⟩
    | v144 v => simp only [Tx.sign]; split <;> exact ⟨rfl, Iff.rfl⟩
    | v145 v => simp only [Tx.sign]; split <;> exact ⟨rfl, Iff.rfl⟩
    | v210 v => simp only [Tx.sign]; split <;> exact ⟨rfl, Iff.rfl⟩
    | _ => exact ⟨rfl, Iff.rfl⟩

/-- A transaction whose object changed, but not its references. -/
theorem separate_base {h : Heap} {ts : List Tx} (hs : Separate h ts) {j : Nat} {o : TxObj} (hj : h.txs[j]? = some o) {t : Tx}
    (hc : t.coinInputs = (o.view h.store).coinInputs) (hp : Plain t ↔ Plain (o.view h.store)) :
    Separate ⟨h.store, h.txs.set j { o with base := t }⟩ (ts.set j t) := by
  have hjl : j < h.txs.length := (List.getElem?_eq_some_iff.1 hj).1
  have hk := hs.kind j o hj
  rw [view_coinInputs hk] at hc
  rw [view_plain] at hp
  have get : ∀ (j' : Nat) (o' : TxObj), (h.txs.set j { o with base := t })[j']? = some o' →
      (j' = j ∧ o' = { o with base := t }) ∨ (j' ≠ j ∧ h.txs[j']? = some o') := by
    intro j' o' h1
    rw [List.getElem?_set] at h1
    split at h1
    · rename_i e; subst e
      cases h1; exact .inl ⟨rfl, rfl⟩
    · rename_i e
      exact .inr ⟨fun x => e x.symm, h1⟩
  have ins : ∀ (j' : Nat) (o' : TxObj), (h.txs.set j { o with base := t })[j']? = some o' → ∃ o'', h.txs[j']? = some o'' ∧ o''.ins = o'.ins := by
    intro j' o' h1
    rcases get j' o' h1 with ⟨rfl, rfl⟩ | ⟨-, h2⟩
    · exact ⟨o, hj, rfl⟩
    · exact ⟨o', h2, rfl⟩
  refine ⟨by simp [hs.len], ?_, ?_, ?_, ?_⟩
  · intro j' o' h1
    rcases get j' o' h1 with ⟨rfl, rfl⟩ | ⟨e, h2⟩
    · rw [List.getElem?_set_self (by rw [← hs.len]; exact hjl)]
      congr 1
      unfold TxObj.view
      cases hi : o.ins with
      | none => simp [hi]
      | some l =>
        rw [hi] at hc
        simp only [hi, put_eq]
        exact (withInputs_self hc).symm
    · rw [List.getElem?_set_ne (fun x => e x.symm)]
      exact hs.view j' o' h2
  · intro j' o' h1
    obtain ⟨o'', h2, h3⟩ := ins j' o' h1
    intro io hio
    rw [← h3] at hio
    exact hs.bound j' o'' h2 io hio
  · intro j1 o1 a1 io1 j2 o2 a2 io2 h1 h2 h3 h4 he
    obtain ⟨p1, x1, y1⟩ := ins j1 o1 h1
    obtain ⟨p2, x2, y2⟩ := ins j2 o2 h3
    rw [← y1] at h2
    rw [← y2] at h4
    exact hs.inj j1 p1 a1 io1 j2 p2 a2 io2 x1 h2 x2 h4 he
  · intro j' o' h1
    rcases get j' o' h1 with ⟨rfl, rfl⟩ | ⟨-, h2⟩
    · refine ⟨fun hh => ?_, fun hh => hk.2 (fun x => hh (hp.2 x))⟩
      have hh' : o.ins = none := hh
      rw [hh'] at hc
      exact hc
    · exact hs.kind j' o' h2

/-- A fulfillment object that changed: only the input that holds it sees it. -/
theorem separate_store {h : Heap} {ts : List Tx} (hs : Separate h ts) {j : Nat} {o : TxObj} (hj : h.txs[j]? = some o) {a : Nat} {io : InputObj}
    (ha : (o.ins.getD [])[a]? = some io) (f : Fulfillment) :
    Separate ⟨h.store.set io.ref f, h.txs⟩
      (ts.set j (withInputs o.base (((o.ins.getD []).map (·.load h.store)).set a ⟨io.parentId, f, io.parent⟩))) := by
  have hjl : j < h.txs.length := (List.getElem?_eq_some_iff.1 hj).1
  have hio := hs.bound j o hj io (List.mem_of_getElem? ha)
  refine ⟨by simp [hs.len], ?_, ?_, ?_, ?_⟩
  · intro j' o' h1
    by_cases e : j = j'
    · subst e
      rw [hj] at h1; cases h1
      rw [List.getElem?_set_self (by rw [← hs.len]; exact hjl)]
      congr 1
      unfold TxObj.view
      cases hi : o.ins with
      | none => rw [hi] at ha; cases ha
      | some l =>
        rw [hi] at ha
        simp only [put_eq, Option.getD_some] at ha ⊢
        congr 1
        apply List.ext_getElem?
        intro b
        rw [List.getElem?_set]
        by_cases e : a = b
        · subst e
          rw [if_pos rfl, List.getElem?_map, ha, if_pos (by simpa using (List.getElem?_eq_some_iff.1 ha).1)]
          simp [InputObj.load, hio]
        · rw [if_neg e, List.getElem?_map, List.getElem?_map]
          cases hb : l[b]? with
          | none => rfl
          | some ib =>
            simp only [Option.map_some]
            congr 1
            refine (load_congr ?_).symm
            rw [List.getElem?_set_ne]
            intro he
            exact e (hs.inj j o a io j o b ib hj (by rw [hi]; exact ha) hj (by rw [hi]; exact hb) he).2
    · rw [List.getElem?_set_ne e, hs.view j' o' h1]
      congr 1
      refine (view_congr ?_).symm
      intro ib hib
      obtain ⟨b, hb⟩ := List.mem_iff_getElem?.1 hib
      rw [List.getElem?_set_ne]
      intro he
      exact e (hs.inj j o a io j' o' b ib hj ha h1 hb he).1
  · intro j' o' h1 ib hib
    simpa using hs.bound j' o' h1 ib hib
  · exact hs.inj
  · exact hs.kind


/-- One act that shares nothing. -/
theorem separate_step {H : Bytes → Bytes} {h : Heap} {ts : List Tx} (hs : Separate h ts) {a : Act} {j : Nat} (ha : Act.target a = some j)
    (hn : ∀ d s, a ≠ .share d s) :
    Separate (h.step H a).1 (ts.mapIdx fun k t => if Act.target a = some k then actOn H t a else t) := by
  rw [ha]
  cases ho : h.txs[j]? with
  | none =>
    have hl : ts.length ≤ j := by rw [← hs.len]; exact List.getElem?_eq_none_iff.1 ho
    rw [mapIdx_out ts j _ hl]
    cases a with
    | new t => cases ha
    | share d s => exact absurd rfl (hn d s)
    | assign i l => cases ha; simp only [Heap.step, ho]; exact hs
    | add i ci => cases ha; simp only [Heap.step, ho]; exact hs
    | sign i tgt k sig => cases ha; simp only [Heap.step, ho]; exact hs
  | some o =>
    have hv := hs.view j o ho
    have hk := hs.kind j o ho
    rw [mapIdx_set ts j _ hv]
    cases a with
    | new t => cases ha
    | share d s => exact absurd rfl (hn d s)
    | assign i l =>
      cases ha
      simp only [Heap.step, ho, actOn]
      cases hc : o.base.setCoinInputs [] with
      | error e =>
        have : (o.view h.store).setCoinInputs l = .error e := by
          unfold TxObj.view
          cases o.ins with
          | none =>
            have := setCoinInputs_any o.base [] [] l hc
            cases hb : o.base <;> simp only [hb] at hc ⊢ <;> first | (cases hc; rfl) | cases hc
          | some l' => simp only [put_eq]; exact setCoinInputs_any _ _ _ _ hc
        simp only [this]
        rw [set_get_self hv]
        exact hs
      | ok t' =>
        have hp := (setCoinInputs_kind hc).1
        have : (o.view h.store).setCoinInputs l = .ok (withInputs o.base (copyInputs l)) := by
          unfold TxObj.view
          cases o.ins with
          | none => exact (setCoinInputs_ok hc [] l).2
          | some l' => simp only [put_eq]; exact (setCoinInputs_ok hc _ l).1
        simp only [this]
        have := separate_alloc hs ho hp [] (List.nil_prefix) (copyInputs l)
        simpa using this
    | add i ci =>
      cases ha
      simp only [Heap.step, ho, actOn]
      cases hc : (o.view h.store).coinInputAdd ci.parentId ci.fulfillment ci.parent with
      | error e =>
        simp only
        rw [set_get_self hv]
        exact hs
      | ok t' =>
        obtain ⟨hp, l, hl, rfl⟩ := coinInputAdd_kind hc
        rw [view_plain] at hp
        rw [view_coinInputs hk] at hl
        simp only [view_with]
        cases hi : o.ins with
        | none => rw [hi] at hl; cases hl
        | some is =>
          rw [hi] at hl
          cases hl
          have := separate_alloc hs ho hp is (by rw [hi]; exact List.prefix_refl _) [ci]
          simpa [hi] using this
    | sign i tgt k sig =>
      cases ha
      simp only [Heap.step, ho, actOn]
      by_cases ht : ∃ b, tgt = .coin b
      · obtain ⟨b, rfl⟩ := ht
        simp only
        by_cases hp : Plain o.base
        · cases hi : o.ins with
          | none =>
            simp only [Option.getD_none, List.getElem?_nil]
            rw [sign_coin_none (.inl (by rw [view_coinInputs hk, hi]; rfl)), set_get_self hv]
            exact hs
          | some is =>
            have hl : (o.view h.store).coinInputs = some (is.map (·.load h.store)) := by rw [view_coinInputs hk, hi]; rfl
            rw [sign_coin_with (view_plain.2 hp) hl]
            simp only [Option.getD_some, view_with, List.getElem?_map]
            cases hb : is[b]? with
            | none =>
              simp only [Option.map_none]
              rw [← view_with (s := h.store), withInputs_self hl, set_get_self hv]
              exact hs
            | some io =>
              have := separate_store hs ho (a := b) (io := io) (by rw [hi]; exact hb) ((io.load h.store).fulfillment.signatureAdd k sig).1
              rw [hi] at this
              exact this
        · have hi := hk.2 hp
          simp only [hi, Option.getD_some, List.getElem?_nil]
          rw [sign_coin_none (.inr (fun x => hp (view_plain.1 x))), set_get_self hv]
          exact hs
      · have ht' : ∀ b, tgt ≠ .coin b := fun b e => ht ⟨b, e⟩
        have := separate_base hs ho (sign_noncoin (H := H) ht' k sig).1 (sign_noncoin (H := H) ht' k sig).2
        cases tgt with
        | coin b => exact absurd rfl (ht' b)
        | _ => exact this

theorem separate_run {H : Bytes → Bytes} : ∀ (l : List Act) (h : Heap) (ts : List Tx), Separate h ts → NoSharing l →
    Separate (l.foldl (fun h a => (h.step H a).1) h) (separately H ts l)
  | [], _, _, hs, _ => hs
  | a :: l, h, ts, hs, hn => by
    have hn' : NoSharing l := fun d s hm => hn d s (List.mem_cons_of_mem _ hm)
    cases a with
    | new t => exact separate_run l _ _ (separate_new hs H t) hn'
    | assign j i => exact separate_run l _ _ (separate_step hs (H := H) (a := .assign j i) rfl (by intro d s e; cases e)) hn'
    | add j i => exact separate_run l _ _ (separate_step hs (H := H) (a := .add j i) rfl (by intro d s e; cases e)) hn'
    | sign j t k sig => exact separate_run l _ _ (separate_step hs (H := H) (a := .sign j t k sig) rfl (by intro d s e; cases e)) hn'
    | share d s => exact absurd (List.mem_cons_self ..) (hn d s)

/-- **C114.** A program that never assigns the inputs of one transaction to another one: every transaction is what the acts on it make of it. -/
theorem C114_separate_partial (H : Bytes → Bytes) (l : List Act) (hn : NoSharing l) (j : Nat) : (Heap.run H l).tx j = (separately H [] l)[j]? := by
  have hs : Separate (Heap.run H l) (separately H [] l) :=
    separate_run l ⟨[], []⟩ [] ⟨rfl, by intro j o h; simp at h, by intro j o h; simp at h, by intro j o a io j' o' a' io' h; simp at h,
      by intro j o h; simp at h⟩ hn
  unfold Heap.tx
  cases ho : (Heap.run H l).txs[j]? with
  | none =>
    have := List.getElem?_eq_none_iff.1 ho
    rw [List.getElem?_eq_none (by rw [← hs.len]; exact this)]
    rfl
  | some o => rw [hs.view j o ho]; rfl

/-! ## With sharing -/

def AllKind (h : Heap) : Prop := ∀ (j : Nat) (o : TxObj), h.txs[j]? = some o → Kind o

theorem allKind_set {h : Heap} (hk : AllKind h) (s : List Fulfillment) (j : Nat) {o : TxObj} (ho : Kind o) : AllKind ⟨s, h.txs.set j o⟩ := by
  intro j' o' h1
  rw [List.getElem?_set] at h1
  split at h1
  · split at h1
    · cases h1; exact ho
    · cases h1
  · exact hk j' o' h1

theorem allKind_new {h : Heap} (hk : AllKind h) (s : List Fulfillment) {o : TxObj} (ho : Kind o) : AllKind ⟨s, h.txs ++ [o]⟩ := by
  intro j' o' h1
  rw [List.getElem?_append] at h1
  split at h1
  · exact hk j' o' h1
  · rcases List.mem_singleton.1 (List.mem_of_getElem? h1) with rfl
    exact ho

theorem allKind_step {H : Bytes → Bytes} {h : Heap} (hk : AllKind h) (a : Act) : AllKind (h.step H a).1 := by
  cases a with
  | new t =>
    simp only [Heap.step]
    cases hc : t.coinInputs with
    | none => exact allKind_new hk _ ⟨fun _ => hc, fun hp => by rw [not_plain_inputs hp] at hc; cases hc⟩
    | some l => exact allKind_new hk _ ⟨fun hh => (by cases hh), fun hp => by rw [not_plain_inputs hp] at hc; cases hc; rfl⟩
  | assign j l =>
    simp only [Heap.step]
    split
    · exact hk
    · split
      · exact hk
      · rename_i hc
        exact allKind_set hk _ _ ⟨fun hh => (by cases hh), fun hp => absurd (setCoinInputs_kind hc).1 hp⟩
  | add j ci =>
    simp only [Heap.step]
    split
    · exact hk
    · split
      · exact hk
      · rename_i hc
        exact allKind_set hk _ _ ⟨fun hh => (by cases hh), fun hp => absurd (view_plain.1 (coinInputAdd_kind hc).1) hp⟩
  | share d s =>
    simp only [Heap.step]
    split
    · split
      · exact hk
      · rename_i hc
        exact allKind_set hk _ _ ⟨fun hh => (by cases hh), fun hp => absurd (setCoinInputs_kind hc).1 hp⟩
    · exact hk
  | sign j tgt k sig =>
    simp only [Heap.step]
    split
    · exact hk
    · rename_i o ho
      by_cases ht : ∃ b, tgt = .coin b
      · obtain ⟨b, rfl⟩ := ht
        simp only
        split
        · exact hk
        · exact hk
      · have ht' : ∀ b, tgt ≠ .coin b := fun b e => ht ⟨b, e⟩
        have h1 := sign_noncoin (H := H) (t := o.view h.store) ht' k sig
        rw [view_coinInputs (hk j o ho), view_plain] at h1
        have : Kind { o with base := ((o.view h.store).sign H tgt k sig).1 } := by
          refine ⟨fun hh => ?_, fun hp => (hk j o ho).2 fun x => hp (h1.2.2 x)⟩
          have hh' : o.ins = none := hh
          rw [h1.1, hh']; rfl
        cases tgt with
        | coin b => exact absurd rfl (ht' b)
        | _ => exact allKind_set hk _ _ this

/-- Two transactions hold the same fulfillment objects. -/
def SameRefs (h : Heap) (d s : Nat) : Prop :=
  ∃ o p, h.txs[d]? = some o ∧ h.txs[s]? = some p ∧ (o.ins.getD []).map (·.ref) = (p.ins.getD []).map (·.ref)

theorem ins_sign {H : Bytes → Bytes} {h : Heap} {j : Nat} {tgt : SigTarget} {k : KeyArg} {sig : BVal} {i : Nat} {o : TxObj} (ho : h.txs[i]? = some o) :
    ∃ o', (h.step H (.sign j tgt k sig)).1.txs[i]? = some o' ∧ o'.ins = o.ins := by
  simp only [Heap.step]
  split
  · exact ⟨o, ho, rfl⟩
  · rename_i p hp
    have key : ∀ b : Tx, ∃ o', (h.txs.set j { p with base := b })[i]? = some o' ∧ o'.ins = o.ins := by
      intro b
      rw [List.getElem?_set]
      by_cases e : j = i
      · subst e
        rw [hp] at ho; cases ho
        rw [if_pos rfl, if_pos (List.getElem?_eq_some_iff.1 hp).1]
        exact ⟨_, rfl, rfl⟩
      · rw [if_neg e]; exact ⟨o, ho, rfl⟩
    cases tgt with
    | coin b =>
      simp only
      split
      · exact ⟨o, ho, rfl⟩
      · exact ⟨o, ho, rfl⟩
    | _ => exact key _

theorem sameRefs_signs {H : Bytes → Bytes} {d s : Nat} : ∀ (l : List Act) (h : Heap), (∀ a ∈ l, ∃ j tgt k sig, a = Act.sign j tgt k sig) →
    AllKind h → SameRefs h d s → SameRefs (l.foldl (fun h a => (h.step H a).1) h) d s ∧ AllKind (l.foldl (fun h a => (h.step H a).1) h)
  | [], _, _, hk, hs => ⟨hs, hk⟩
  | a :: l, h, hl, hk, hs => by
    refine sameRefs_signs l _ (fun b hb => hl b (List.mem_cons_of_mem _ hb)) (allKind_step hk a) ?_
    obtain ⟨j, tgt, k, sig, rfl⟩ := hl a (List.mem_cons_self ..)
    obtain ⟨o, p, h1, h2, h3⟩ := hs
    obtain ⟨o', x1, y1⟩ := ins_sign (H := H) (j := j) (tgt := tgt) (k := k) (sig := sig) h1
    obtain ⟨p', x2, y2⟩ := ins_sign (H := H) (j := j) (tgt := tgt) (k := k) (sig := sig) h2
    exact ⟨o', p', x1, x2, by rw [y1, y2]; exact h3⟩

theorem allKind_run {H : Bytes → Bytes} : ∀ (l : List Act) (h : Heap), AllKind h → AllKind (l.foldl (fun h a => (h.step H a).1) h)
  | [], _, hk => hk
  | a :: l, _, hk => allKind_run l _ (allKind_step hk a)

/-- **C114.** What happens otherwise: after `dst.coin_inputs = src.coin_inputs`, wherever the signatures then arrive, the two transactions
always show the same fulfillments. -/
theorem C114_follow (H : Bytes → Bytes) (l : List Act) (dst src : Nat) (hok : ((Heap.run H l).step H (.share dst src)).2 = none) (signs : List Act)
    (hs : ∀ a ∈ signs, ∃ j tgt k sig, a = Act.sign j tgt k sig) (t u : Tx) (ht : (Heap.run H (l ++ .share dst src :: signs)).tx dst = some t)
    (hu : (Heap.run H (l ++ .share dst src :: signs)).tx src = some u) :
    (t.coinInputs.getD []).map (·.fulfillment) = (u.coinInputs.getD []).map (·.fulfillment) := by
  have hk : AllKind (Heap.run H l) := allKind_run l _ (by intro j o h; simp at h)
  have hr : SameRefs ((Heap.run H l).step H (.share dst src)).1 dst src := by
    simp only [Heap.step] at hok ⊢
    cases ho : (Heap.run H l).txs[dst]? with
    | none => rw [ho] at hok; cases hok
    | some o =>
      cases hp : (Heap.run H l).txs[src]? with
      | none => rw [ho, hp] at hok; cases hok
      | some p =>
        simp only [ho, hp] at hok ⊢
        cases hc : o.base.setCoinInputs [] with
        | error e => rw [hc] at hok; cases hok
        | ok t' =>
          simp only
          by_cases e : dst = src
          · subst e
            rw [SameRefs]
            have := List.getElem?_set_self (a := ({ o with ins := some ((p.ins.getD []).map fun i => { i with parent := some (i.parent.getD .default) }) } : TxObj)) (List.getElem?_eq_some_iff.1 ho).1
            exact ⟨_, _, this, this, rfl⟩
          · refine ⟨_, p, List.getElem?_set_self (List.getElem?_eq_some_iff.1 ho).1, by rw [List.getElem?_set_ne e]; exact hp, ?_⟩
            simp [List.map_map, Function.comp_def]
  obtain ⟨⟨o, p, h1, h2, h3⟩, hk'⟩ := sameRefs_signs (H := H) signs _ hs (allKind_step hk _) hr
  have e : Heap.run H (l ++ .share dst src :: signs) =
      signs.foldl (fun h a => (h.step H a).1) ((Heap.run H l).step H (.share dst src)).1 := by
    simp only [Heap.run, List.foldl_append, List.foldl_cons]
  rw [e] at ht hu
  simp only [Heap.tx, h1, h2, Option.map_some, Option.some.injEq] at ht hu
  subst ht hu
  rw [view_coinInputs (hk' dst o h1), view_coinInputs (hk' src p h2)]
  have load : ∀ (s : List Fulfillment) (q : TxObj), ((q.ins.map (·.map (·.load s))).getD []).map (·.fulfillment) =
      ((q.ins.getD []).map (·.ref)).map fun r => s.getD r (.single .default none) := by
    intro s q
    cases q.ins with
    | none => rfl
    | some l => simp [List.map_map, Function.comp_def, InputObj.load]
  rw [load, load, h3]

/-- A payment of 9 coins to `key2`. -/
def shareA : Tx := .v1 {
  coinInputs := [⟨⟨List.replicate 32 1⟩, .single .default none, some ⟨⟨some ⟨false, 10, 0⟩⟩, .unlockHash (addrOf key1), ⟨[]⟩⟩⟩],
  coinOutputs := [⟨⟨some ⟨false, 9, 0⟩⟩, .unlockHash (addrOf key2), ⟨[]⟩⟩], minerFees := [⟨some ⟨false, 1, 0⟩⟩] }
/-- Another one of the same coin, to `key1` itself. -/
def shareB : Tx := .v1 {
  coinInputs := [], coinOutputs := [⟨⟨some ⟨false, 9, 0⟩⟩, .unlockHash (addrOf key1), ⟨[]⟩⟩], minerFees := [⟨some ⟨false, 1, 0⟩⟩] }

/-- Without sharing: inputs assigned, inputs added, signatures to all of them. -/
def apart : List Act :=
  [.new shareA, .new shareB, .assign 1 [⟨⟨List.replicate 32 1⟩, .single .default none, some ⟨⟨some ⟨false, 10, 0⟩⟩, .unlockHash (addrOf key1), ⟨[]⟩⟩⟩],
   .add 0 ⟨⟨List.replicate 32 2⟩, .single .default none, none⟩, .sign 1 (.coin 0) (.key key1) (.bytes (List.replicate 64 9)),
   .sign 0 (.coin 1) (.key key2) (.bytes (List.replicate 64 8))]
example : NoSharing apart := by
  intro d s h
  simp [apart] at h
example : (separately toyHash [] apart)[0]? ≠ some shareA ∧ (separately toyHash [] apart)[1]? ≠ some shareB ∧
    ((Heap.run toyHash apart).tx 1).map Tx.isFulfilled = some (.ok true) ∧ ((Heap.run toyHash apart).tx 0).map Tx.isFulfilled ≠ some (.ok true) := by
  decide +kernel

/-- **C114 is false** when the inputs of one transaction are assigned to another: only the second one is signed, and the first one, of which
the signatures are over other bytes, counts as fulfilled. -/
theorem C114_shared_false : ∃ (l : List Act) (sig : BVal), (∀ k s, Act.sign 0 (.coin 0) k s ∉ l) ∧ Act.sign 1 (.coin 0) (.key key1) sig ∈ l ∧
    (Heap.run toyHash l).tx 0 ≠ (separately toyHash [] l)[0]? ∧
    ((separately toyHash [] l)[0]?.map Tx.isFulfilled) = some (.ok false) ∧ ((Heap.run toyHash l).tx 0).map Tx.isFulfilled = some (.ok true) ∧
    ((Heap.run toyHash l).tx 0).map (fun t => t.preimage toyHash (.coin 0) key1) ≠ ((Heap.run toyHash l).tx 1).map (fun t => t.preimage toyHash (.coin 0) key1) := by
  refine ⟨[.new shareA, .new shareB, .share 1 0, .sign 1 (.coin 0) (.key key1) (.bytes (List.replicate 64 9))], .bytes (List.replicate 64 9), ?_, ?_, ?_⟩
  · intro k s h
    simp at h
  · simp
  · decide +kernel

example : ((Heap.run toyHash [.new shareA, .new shareB]).step toyHash (.share 1 0)).2 = none := by decide +kernel

end TF.Props
