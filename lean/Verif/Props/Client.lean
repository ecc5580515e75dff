import Verif.Model.Client
import Verif.Spec.Client
import Verif.Props.Deliver
import Verif.Props.Keys
/-! # C61, C62: what the client makes of the explorers' answers -/
namespace TF.Props
open TF TF.Spec

theorem bind_ok {α β : Type} {r : Res α} {f : α → Res β} {b : β} (h : (r >>= f) = .ok b) : ∃ a, r = .ok a ∧ f a = .ok b := by
  cases r with
  | error e => cases h
  | ok a => exact ⟨a, rfl, h⟩

/-- What a parsed transaction consists of. -/
structure Parsed (L : IpLib) (H : Bytes → Bytes) (e : Json) (ct : ChainTx) where
  raw : Json
  t : Tx
  ins : List CoinInput
  parents : List Json
  cos : List CoinOutput
  outIds : List Json
  ids : List Hash
  sos : List StakeOutput
  soutIds : List Json
  sids : List Hash
  hraw : e.idx "rawtransaction" = .ok raw
  ht : Tx.fromJson L H raw = .ok t
  hid : ∃ j, e.idx "id" = .ok j ∧ Hash.new j.bval = .ok ct.id
  hins : t.coinInputs = some ins
  hparents : e.listField "coininputoutputs" = .ok parents
  hplen : ins.length = parents.length
  hcos : parents.mapM (CoinOutput.fromJson H) = .ok cos
  hout : e.listField "coinoutputids" = .ok outIds
  holen : t.coinOutputs.length = outIds.length
  hids : outIds.mapM hashOfJson = .ok ids
  hsout : e.listField "blockstakeoutputids" = .ok soutIds
  hsolen : t.stakeOutputs.length = soutIds.length
  hsids : soutIds.mapM hashOfJson = .ok sids
  hconf : confirmation e = .ok (ct.unconfirmed, ct.height)
  htx : ct.tx = ((t.attachParents cos).setIds 0 ids).attachStakes sos sids

theorem sameLength_ok {a b : Nat} (h : sameLength a b = .ok ()) : a = b := by
  unfold sameLength at h
  split at h
  · cases h
  · rename_i h'; exact Classical.not_not.mp h'

theorem expect_ok {b : Bool} (h : expect b = .ok ()) : b = true := by
  unfold expect at h
  split at h
  · assumption
  · cases h

theorem inputsList_ok {t : Tx} {l : List CoinInput} (h : t.inputsList = .ok l) : t.coinInputs = some l := by
  unfold Tx.inputsList at h
  split at h
  · cases h
  · cases h; assumption

theorem parseTx_ok {L : IpLib} {H : Bytes → Bytes} {e : Json} {ct : ChainTx} (h : parseTx L H e = .ok ct) : Nonempty (Parsed L H e ct) := by
  unfold parseTx at h
  obtain ⟨raw, h1, h⟩ := bind_ok h
  obtain ⟨eid, h2, h⟩ := bind_ok h
  obtain ⟨t, h3, h⟩ := bind_ok h
  obtain ⟨id, h4, h⟩ := bind_ok h
  obtain ⟨parents, h5, h⟩ := bind_ok h
  obtain ⟨ins, h6, h⟩ := bind_ok h
  obtain ⟨_, h7, h⟩ := bind_ok h
  obtain ⟨cos, h8, h⟩ := bind_ok h
  obtain ⟨outIds, h9, h⟩ := bind_ok h
  obtain ⟨_, h10, h⟩ := bind_ok h
  obtain ⟨ids, h11, h⟩ := bind_ok h
  obtain ⟨sparents, _, h⟩ := bind_ok h
  obtain ⟨_, _, h⟩ := bind_ok h
  obtain ⟨sos, _, h⟩ := bind_ok h
  obtain ⟨soutIds, h15, h⟩ := bind_ok h
  obtain ⟨_, h16, h⟩ := bind_ok h
  obtain ⟨sids, h17, h⟩ := bind_ok h
  obtain ⟨⟨u, ht⟩, h18, h⟩ := bind_ok h
  cases h
  exact ⟨⟨raw, t, ins, parents, cos, outIds, ids, sos, soutIds, sids, h1, h3, ⟨eid, h2, h4⟩, inputsList_ok h6, h5, sameLength_ok h7, h8, h9,
    sameLength_ok h10, h11, h15, sameLength_ok h16, h17, h18, rfl⟩⟩

/-! ## What parsing leaves unchanged -/

theorem attachParents_outputs (t : Tx) (cos : List CoinOutput) : (t.attachParents cos).coinOutputs = t.coinOutputs := by cases t <;> rfl
theorem attachParents_inputs (t : Tx) (cos : List CoinOutput) : (t.attachParents cos).coinInputs = t.coinInputs.map (attachParents · cos) := by
  cases t <;> rfl
theorem attachParents_withdrawal (t : Tx) (cos : List CoinOutput) : IsWithdrawal (t.attachParents cos) ↔ IsWithdrawal t := by
  cases t <;> exact Iff.rfl
theorem attachParents_stakes (t : Tx) (cos : List CoinOutput) : (t.attachParents cos).stakeOutputs = t.stakeOutputs := by cases t <;> rfl
theorem attachStakes_outputs (t : Tx) (a : List StakeOutput) (b : List Hash) : (t.attachStakes a b).coinOutputs = t.coinOutputs := by
  cases t <;> rfl
theorem attachStakes_inputs (t : Tx) (a : List StakeOutput) (b : List Hash) : (t.attachStakes a b).coinInputs = t.coinInputs := by
  cases t <;> rfl
theorem attachStakes_withdrawal (t : Tx) (a : List StakeOutput) (b : List Hash) : IsWithdrawal (t.attachStakes a b) ↔ IsWithdrawal t := by
  cases t <;> exact Iff.rfl
theorem attachStakes_stakes (t : Tx) (a : List StakeOutput) (b : List Hash) : (t.attachStakes a b).stakeOutputs = setStakeIds t.stakeOutputs b := by
  cases t <;> first | rfl | (show [] = setStakeIds [] b; cases b <;> rfl)

theorem not_withdrawal {t : Tx} (h : ¬ IsWithdrawal t) : ∀ v, t ≠ .v209 v := by rintro v rfl; exact h trivial

theorem setOutputId_withdrawal (t : Tx) (i : Nat) (h : Hash) : IsWithdrawal (t.setOutputId i h) ↔ IsWithdrawal t := by cases t <;> exact Iff.rfl

theorem setIds_keep (t : Tx) (i : Nat) (ids : List Hash) : (t.setIds i ids).coinInputs = t.coinInputs ∧
    (t.setIds i ids).stakeOutputs = t.stakeOutputs ∧ (IsWithdrawal (t.setIds i ids) ↔ IsWithdrawal t) := by
  induction ids generalizing t i with
  | nil => exact ⟨rfl, rfl, Iff.rfl⟩
  | cons h hs ih =>
    obtain ⟨h1, h2, h3⟩ := ih (t.setOutputId i h) (i + 1)
    simp only [Tx.setIds]
    exact ⟨h1.trans (by cases t <;> rfl), h2.trans (by cases t <;> rfl), h3.trans (setOutputId_withdrawal t i h)⟩

theorem setIds_withdrawal (t : Tx) (hw : IsWithdrawal t) (i : Nat) (ids : List Hash) : t.setIds i ids = t := by
  induction ids generalizing i with
  | nil => rfl
  | cons h hs ih =>
    have : t.setOutputId i h = t := by cases t <;> first | rfl | exact absurd hw (by simp [IsWithdrawal])
    simp only [Tx.setIds, this, ih]

theorem setIds_get (t : Tx) (hw : ¬ IsWithdrawal t) (i : Nat) (ids : List Hash) (k : Nat) :
    (t.setIds i ids).coinOutputs[k]? =
      if i ≤ k then match ids[k - i]? with
        | some h => t.coinOutputs[k]?.map fun co => { co with id := h }
        | none => t.coinOutputs[k]?
      else t.coinOutputs[k]? := by
  induction ids generalizing t i with
  | nil => simp [Tx.setIds]
  | cons h hs ih =>
    simp only [Tx.setIds]
    rw [ih _ (by rwa [setOutputId_withdrawal]), setOutputId_outputs t (not_withdrawal hw), getElem?_setIdAt]
    by_cases h1 : i ≤ k
    · by_cases h2 : k = i
      · subst h2
        simp
        intro h; omega
      · have h3 : i + 1 ≤ k := by omega
        have h4 : k - i = (k - (i + 1)) + 1 := by omega
        simp only [h1, h3, if_true, h2, if_false, h4, List.getElem?_cons_succ]
    · have h3 : ¬ i + 1 ≤ k := by omega
      have h2 : k ≠ i := by omega
      simp [h1, h3, h2]

theorem setStakeIds_get (l : List StakeOutput) (ids : List Hash) (hl : l.length = ids.length) (k : Nat) (o : StakeOutput)
    (h : (setStakeIds l ids)[k]? = some o) : ∃ o' i, l[k]? = some o' ∧ ids[k]? = some i ∧ o = { o' with id := i } := by
  induction l generalizing ids k with
  | nil => cases ids <;> simp [setStakeIds] at h
  | cons x l ih =>
    match ids, hl with
    | i :: ids, hl =>
      simp only [setStakeIds] at h
      cases k with
      | zero => simp only [List.getElem?_cons_zero, Option.some.injEq] at h ⊢; exact ⟨x, i, rfl, rfl, h.symm⟩
      | succ k => simp only [List.getElem?_cons_succ] at h ⊢; exact ih ids (by simpa using hl) k h

theorem attachParents_get (l : List CoinInput) (cos : List CoinOutput) (hl : l.length = cos.length) (k : Nat) (ci : CoinInput)
    (h : (attachParents l cos)[k]? = some ci) :
    ∃ ci' o, l[k]? = some ci' ∧ cos[k]? = some o ∧ ci = { ci' with parent := some { o with id := ci'.parentId } } := by
  induction l generalizing cos k with
  | nil => cases cos <;> simp [attachParents] at h
  | cons x l ih =>
    match cos, hl with
    | o :: cos, hl =>
      simp only [attachParents] at h
      cases k with
      | zero => simp only [List.getElem?_cons_zero, Option.some.injEq] at h ⊢; exact ⟨x, o, rfl, rfl, h.symm⟩
      | succ k => simp only [List.getElem?_cons_succ] at h ⊢; exact ih cos (by simpa using hl) k h

theorem attachParents_length (l : List CoinInput) (cos : List CoinOutput) : (attachParents l cos).length = l.length := by
  induction l generalizing cos with
  | nil => cases cos <;> rfl
  | cons x l ih => cases cos with
    | nil => rfl
    | cons o cos => simp [attachParents, ih]

/-- The other direction of `mapM_get`. -/
theorem mapM_get' {α β : Type} {f : α → Res β} {l : List α} {r : List β} (h : l.mapM f = .ok r) (i : Nat) (y : β) (hy : r[i]? = some y) :
    ∃ x, l[i]? = some x ∧ f x = .ok y := by
  obtain ⟨hl, hg⟩ := mapM_get h
  have hi : i < l.length := by
    have := (List.getElem?_eq_some_iff.mp hy).1
    omega
  obtain ⟨y', h1, h2⟩ := hg i l[i] (List.getElem?_eq_getElem hi)
  rw [hy] at h1; cases h1
  exact ⟨l[i], List.getElem?_eq_getElem hi, h2⟩

/-! ## C94: annotations -/

/-- **C94**: the coin inputs of a transaction read from an explorer are those of the transaction, each knowing the output that the explorer says
it spends. -/
theorem C94_inputs {L : IpLib} {H : Bytes → Bytes} {e : Json} {ct : ChainTx} (h : parseTx L H e = .ok ct) :
    ∃ t ins ins', EntryTx L H e t ∧ t.coinInputs = some ins ∧ ct.tx.coinInputs = some ins' ∧ ins'.length = ins.length ∧
      ∀ k ci, ins'[k]? = some ci → ListsInput L H e k ci := by
  obtain ⟨p⟩ := parseTx_ok h
  have hi : ct.tx.coinInputs = some (attachParents p.ins p.cos) := by
    rw [p.htx, attachStakes_inputs, (setIds_keep _ _ _).1, attachParents_inputs, p.hins]; rfl
  refine ⟨p.t, p.ins, _, ⟨p.raw, p.hraw, p.ht⟩, p.hins, hi, attachParents_length _ _, ?_⟩
  intro k ci hk
  obtain ⟨ci', o, h1, h2, rfl⟩ := attachParents_get _ _ (by rw [p.hplen, (mapM_get p.hcos).1]) k ci hk
  obtain ⟨j, h3, h4⟩ := mapM_get' p.hcos k o h2
  exact ⟨p.t, p.ins, ci', j, o, ⟨p.raw, p.hraw, p.ht⟩, p.hins, h1, rfl, rfl, ⟨p.parents, p.hparents, h3⟩, h4, rfl⟩

/-- **C94** (partial: not for ERC20 withdrawals): the coin outputs of a transaction read from an explorer are those of the transaction, with the
ids the explorer lists for them. -/
theorem C94_outputs_partial {L : IpLib} {H : Bytes → Bytes} {e : Json} {ct : ChainTx} (h : parseTx L H e = .ok ct) (hw : ¬ IsWithdrawal ct.tx) :
    ∃ t, EntryTx L H e t ∧ ct.tx.coinOutputs.length = t.coinOutputs.length ∧
      ∀ k o, ct.tx.coinOutputs[k]? = some o → ListsCoin L H e k o := by
  obtain ⟨p⟩ := parseTx_ok h
  have hw' : ¬ IsWithdrawal (p.t.attachParents p.cos) := by
    intro h'
    apply hw
    rw [p.htx, attachStakes_withdrawal, (setIds_keep _ _ _).2.2]; exact h'
  have hl : p.ids.length = p.t.coinOutputs.length := by rw [(mapM_get p.hids).1, p.holen]
  have hg : ∀ k : Nat, ct.tx.coinOutputs[k]? = match p.ids[k]? with
      | some h => p.t.coinOutputs[k]?.map fun (co : CoinOutput) => { co with id := h }
      | none => p.t.coinOutputs[k]? := by
    intro k
    rw [p.htx, attachStakes_outputs, setIds_get _ hw', attachParents_outputs]
    simp
  refine ⟨p.t, ⟨p.raw, p.hraw, p.ht⟩, ?_, ?_⟩
  · apply Nat.le_antisymm
    · apply Nat.le_of_not_lt
      intro hc
      have := hg p.t.coinOutputs.length
      rw [List.getElem?_eq_getElem hc] at this
      rw [List.getElem?_eq_none (by omega)] at this
      simp at this
    · apply Nat.le_of_not_lt
      intro hc
      have := hg ct.tx.coinOutputs.length
      rw [List.getElem?_eq_none (Nat.le_refl _)] at this
      rw [List.getElem?_eq_getElem (by omega), List.getElem?_eq_getElem hc] at this
      simp at this
  · intro k o hk
    rw [hg k] at hk
    cases hi : p.ids[k]? with
    | none =>
      rw [hi] at hk
      simp only at hk
      have := (List.getElem?_eq_some_iff.mp hk).1
      rw [List.getElem?_eq_none_iff] at hi
      omega
    | some i =>
      rw [hi] at hk
      simp only [Option.map_eq_some_iff] at hk
      obtain ⟨o', h1, rfl⟩ := hk
      obtain ⟨j, h3, h4⟩ := mapM_get' p.hids k i hi
      exact ⟨p.t, o', j, ⟨p.raw, p.hraw, p.ht⟩, h1, rfl, rfl, ⟨p.outIds, p.hout, h3⟩, h4⟩

/-- **C94** is false for ERC20 withdrawals: whatever id the explorer lists for the coins that are created, the transaction's output has no
id. -/
theorem C94_withdrawal_false {L : IpLib} {H : Bytes → Bytes} {e : Json} {ct : ChainTx} (h : parseTx L H e = .ok ct) (hw : IsWithdrawal ct.tx) :
    ∃ o, ct.tx.coinOutputs = [o] ∧ o.id = ⟨[]⟩ := by
  have _ := h
  match hc : ct.tx with
  | .v209 v => exact ⟨_, rfl, rfl⟩
  | .v1 _ | .v128 _ | .v129 _ | .v144 _ | .v145 _ | .v146 _ | .v208 _ | .v210 _ => rw [hc] at hw; exact absurd hw (by simp [IsWithdrawal])

/-- **C94**: the blockstake outputs carry the ids the explorer lists for them. -/
theorem C94_stakes {L : IpLib} {H : Bytes → Bytes} {e : Json} {ct : ChainTx} (h : parseTx L H e = .ok ct) :
    ∀ k o, ct.tx.stakeOutputs[k]? = some o → ListsStake L H e k o := by
  obtain ⟨p⟩ := parseTx_ok h
  intro k o hk
  rw [p.htx, attachStakes_stakes, (setIds_keep _ _ _).2.1, attachParents_stakes] at hk
  obtain ⟨o', i, h1, h2, rfl⟩ := setStakeIds_get _ _ (by rw [p.hsolen, (mapM_get p.hsids).1]) k o hk
  obtain ⟨j, h3, h4⟩ := mapM_get' p.hsids k i h2
  exact ⟨p.t, o', j, ⟨p.raw, p.hraw, p.ht⟩, h1, rfl, rfl, ⟨p.soutIds, p.hsout, h3⟩, h4⟩

/-- **C94**: a transaction read from an explorer is unconfirmed or has a height of at least 0, exactly one of both. -/
theorem C94_confirmed {L : IpLib} {H : Bytes → Bytes} {e : Json} {ct : ChainTx} (h : parseTx L H e = .ok ct) :
    (ct.unconfirmed = true ↔ ct.height = -1) ∧ (ct.unconfirmed = false ↔ 0 ≤ ct.height) := by
  obtain ⟨p⟩ := parseTx_ok h
  have hc := p.hconf
  unfold confirmation at hc
  obtain ⟨v, _, hc⟩ := bind_ok hc
  split at hc
  · have hc := Prod.mk.inj (Except.ok.inj hc)
    rw [← hc.1, ← hc.2]
    decide
  · obtain ⟨j, _, hc⟩ := bind_ok hc
    obtain ⟨n, hn, hc⟩ := bind_ok hc
    unfold heightOf at hn
    obtain ⟨m, _, hn⟩ := bind_ok hn
    split at hn
    · cases hn
    · cases hn
      have hc := Prod.mk.inj (Except.ok.inj hc)
      rw [← hc.1, ← hc.2]
      constructor <;> constructor <;> intro <;> first | omega | simp_all
  · cases hc

end TF.Props
