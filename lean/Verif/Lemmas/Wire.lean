import Verif.Spec.Wire
import Verif.Lemmas.Total
import Mathlib.Data.Nat.Digits.Lemmas
/-! # What the encoders write, if they return -/
namespace TF
open Spec

/-- If the calls return, they have written `b`. -/
def Out.Writes (o : Out) (b : Bytes) : Prop := o.err = none → o.bytes = b

theorem Out.Writes.toRes {o : Out} {b x : Bytes} (h : o.Writes b) (hx : o.toRes = .ok x) : x = b := by
  unfold Out.toRes at hx
  split at hx
  · rename_i he; cases hx; exact h he
  · cases hx

theorem writes_ok (b : Bytes) : (Out.ok b).Writes b := fun _ => rfl
theorem writes_raise (e : Err) (b : Bytes) : (Out.raise e).Writes b := fun h => by cases h
theorem writes_andThen {a b : Out} {x y : Bytes} (ha : a.Writes x) (hb : b.Writes y) : (a.andThen b).Writes (x ++ y) := by
  intro h
  unfold Out.andThen at h ⊢
  cases he : a.err with
  | none => rw [he] at h; simp only at h ⊢; rw [ha he, hb h]
  | some e => rw [he] at h; simp only at h; rw [he] at h; cases h
theorem writes_type {a : Out} {x : Bytes} (ha : a.Writes x) : a.typeErrorAsValueError.Writes x := by
  intro h
  unfold Out.typeErrorAsValueError at h ⊢
  split
  · rename_i he; rw [if_pos he] at h; cases h
  · rename_i he; rw [if_neg he] at h; exact ha h
theorem writes_nested {a : Out} {x y : Bytes} {f : Bytes → Out} (ha : a.Writes x) (hf : (f x).Writes y) : (a.nested f).Writes y := by
  intro h
  unfold Out.nested at h ⊢
  cases he : a.err with
  | none => rw [he] at h; simp only at h ⊢; rw [ha he] at h ⊢; exact hf h
  | some e => rw [he] at h; simp only at h; cases h
theorem writes_seqNil : (seqOut []).Writes [] := writes_ok []
theorem writes_seqCons {o : Out} {os : List Out} {x y : Bytes} (h : o.Writes x) (ht : (seqOut os).Writes y) : (seqOut (o :: os)).Writes (x ++ y) :=
  writes_andThen h ht
theorem writes_eq {o : Out} {x y : Bytes} (h : o.Writes x) (he : x = y) : o.Writes y := he ▸ h
theorem writes_ofRes {α : Type} {r : Res α} {f : α → Out} {b : Bytes} (h : ∀ x, r = .ok x → (f x).Writes b) : (Out.ofRes r f).Writes b := by
  unfold Out.ofRes
  cases r with
  | ok x => exact h x rfl
  | error e => exact writes_raise e b

theorem le_eq (n v : Nat) : toBytesLE n v = Wire.le n v := by
  induction n generalizing v with
  | zero => rfl
  | succ n ih =>
    rw [toBytesLE, ih]
    unfold Wire.le
    rw [List.range_succ_eq_map, List.map_cons, List.map_map]
    congr 1
    · apply UInt8.toNat_inj.1; simp
    · apply List.map_congr_left
      intro i _
      simp only [Function.comp_apply, Nat.succ_eq_add_one]
      rw [Nat.div_div_eq_div_mul, Nat.pow_succ, Nat.mul_comm]

theorem digits_le (n : Nat) : ∀ v, v < 256 ^ n → (n ≠ 0 → 256 ^ (n - 1) ≤ v) → toBytesLE n v = (Nat.digits 256 v).map UInt8.ofNat := by
  induction n with
  | zero => intro v h _; have : v = 0 := by omega
            subst this; simp [toBytesLE]
  | succ n ih =>
    intro v h h'
    have hp : 0 < 256 ^ n := Nat.pow_pos (by omega)
    have hv : 256 ^ n ≤ v := h' (by omega)
    have hv0 : v ≠ 0 := by omega
    rw [toBytesLE, Nat.digits_def' (by omega) (by omega), List.map_cons]
    congr 1
    apply ih
    · rw [Nat.pow_succ] at h; omega
    · intro hn
      obtain ⟨m, rfl⟩ : ∃ m, n = m + 1 := ⟨n - 1, by omega⟩
      rw [Nat.pow_succ] at hv
      simp only [Nat.add_sub_cancel]
      omega
theorem be_eq (v : Nat) : toBytesBE (minBytes v) v = Wire.be v := by
  obtain ⟨h1, h2, h3⟩ := minBytes_spec v
  unfold toBytesBE Wire.be
  rw [digits_le _ v h1 (fun hn => h2 fun h0 => hn (h3.1 h0)), List.map_reverse]

theorem writes_siaInt (v : Int) : (siaInt v).Writes (Wire.le 8 v.toNat) := by
  by_cases h : 0 ≤ v ∧ v < 2 ^ 64
  · rw [siaInt_ok h.1 h.2, ← le_eq]; exact writes_ok _
  · rw [siaInt_err h]; exact writes_raise _ _
theorem writes_rivInt (n : Nat) (v : Int) : (rivInt n v).Writes (Wire.le n v.toNat) := by
  by_cases h : 0 ≤ v ∧ v < 2 ^ (8 * n)
  · rw [rivInt_ok h.1 h.2, ← le_eq]; exact writes_ok _
  · rw [rivInt_err h]; exact writes_raise _ _
theorem writes_byte {v : Int} {b : UInt8} (h : UInt8.ofNat v.toNat = b) : (rivInt 1 v).Writes [b] := by
  refine writes_eq (writes_rivInt 1 v) ?_
  show [UInt8.ofNat (v.toNat / 256 ^ 0)] = [b]
  rw [← h]; simp

theorem writes_siaLen (n : Nat) : (siaInt n).Writes (Wire.size .sia n) := writes_siaInt n
theorem writes_rivLen (n : Nat) : (rivSliceLen n).Writes (Wire.size .riv n) := by
  by_cases h : n < 2 ^ 29
  · rw [rivSliceLen_ok h]
    refine writes_eq (writes_ok _) ?_
    unfold rivLenBytes Wire.size
    simp only [le_eq, Nat.mul_comm n, Nat.add_comm]
  · rw [rivSliceLen_err (by omega)]; exact writes_raise _ _
theorem writes_siaSlice (b : Bytes) : (siaSliceBytes b).Writes (Wire.slice .sia b) := writes_andThen (writes_siaLen _) (writes_ok b)
theorem writes_rivSlice (b : Bytes) : (rivSliceBytes b).Writes (Wire.slice .riv b) := writes_andThen (writes_rivLen _) (writes_ok b)
theorem writes_data (b : Bytes) : (siaAdd (dataVal b)).Writes (Wire.slice .sia b) := by
  rw [dataVal, siaAdd_obj]; exact writes_siaSlice b

/-- The encoding in a format. -/
def addIn : Wire.Format → Val → Out
  | .sia => siaAdd
  | .riv => rivAdd
@[inherit_doc addIn] def addSeqIn : Wire.Format → List Val → Out
  | .sia => siaAddSeq
  | .riv => rivAddSeq
@[inherit_doc addIn] def sliceIn : Wire.Format → Bytes → Out
  | .sia => siaSliceBytes
  | .riv => rivSliceBytes
/-- What a value writes in both formats. -/
def Val.Writes (v : Val) (b : Wire.Format → Bytes) : Prop := ∀ F, (addIn F v).Writes (b F)

theorem writes_obj {a b : Out} {x : Wire.Format → Bytes} (ha : a.Writes (x .sia)) (hb : b.Writes (x .riv)) : (Val.obj a b).Writes x := by
  intro F
  cases F with
  | sia => show (siaAdd _).Writes _; rw [siaAdd_obj]; exact ha
  | riv => show (rivAdd _).Writes _; rw [rivAdd_obj]; exact hb
theorem writes_nil (F : Wire.Format) : (addSeqIn F []).Writes [] := by
  cases F with
  | sia => show (siaAddSeq []).Writes _; rw [siaAddSeq]; exact writes_ok _
  | riv => show (rivAddSeq []).Writes _; rw [rivAddSeq]; exact writes_ok _
theorem writes_cons {F : Wire.Format} {v : Val} {vs : List Val} {x y : Bytes} (h : (addIn F v).Writes x) (ht : (addSeqIn F vs).Writes y) :
    (addSeqIn F (v :: vs)).Writes (x ++ y) := by
  cases F with
  | sia => show (siaAddSeq _).Writes _; rw [siaAddSeq]; exact writes_andThen h ht
  | riv => show (rivAddSeq _).Writes _; rw [rivAddSeq]; exact writes_andThen h ht
theorem writes_map {α : Type} {F : Wire.Format} {f : α → Val} {g : α → Bytes} : ∀ {l : List α}, (∀ x ∈ l, (addIn F (f x)).Writes (g x)) →
    (addSeqIn F (l.map f)).Writes (l.flatMap g)
  | [], _ => writes_nil F
  | x :: l, h => by
    rw [List.map_cons, List.flatMap_cons]
    exact writes_cons (h x (by simp)) (writes_map fun y hy => h y (by simp [hy]))
theorem writes_mapOut {α : Type} {f : α → Out} {g : α → Bytes} : ∀ {l : List α}, (∀ x ∈ l, (f x).Writes (g x)) → (seqOut (l.map f)).Writes (l.flatMap g)
  | [], _ => writes_seqNil
  | x :: l, h => by
    rw [List.map_cons, List.flatMap_cons]
    exact writes_seqCons (h x (by simp)) (writes_mapOut fun y hy => h y (by simp [hy]))
theorem writes_list {α : Type} {F : Wire.Format} {f : α → Val} {g : α → Bytes} {l : List α} (h : ∀ x ∈ l, (addIn F (f x)).Writes (g x)) :
    (addIn F (.seq (l.map f))).Writes (Wire.list F g l) := by
  have := writes_map h
  cases F with
  | sia =>
    show (siaAdd _).Writes _; rw [siaAdd]
    refine writes_type (writes_andThen ?_ this)
    rw [List.length_map]; exact writes_siaLen _
  | riv =>
    show (rivAdd _).Writes _; rw [rivAdd]
    refine writes_type (writes_andThen ?_ this)
    rw [List.length_map]; exact writes_rivLen _
theorem writes_siaList {α : Type} {f : α → Val} {g : α → Bytes} {l : List α} (h : ∀ x ∈ l, (addIn .sia (f x)).Writes (g x)) :
    (siaAddSlice (.seq (l.map f))).Writes (Wire.list .sia g l) := by
  show ((siaInt (l.map f).length).andThen (siaAddSeq (l.map f))).Writes _
  rw [List.length_map]; exact writes_andThen (writes_siaLen _) (writes_map h)
theorem writes_rivList {α : Type} {f : α → Val} {g : α → Bytes} {l : List α} (h : ∀ x ∈ l, (addIn .riv (f x)).Writes (g x)) :
    (rivAddSlice (.seq (l.map f))).Writes (Wire.list .riv g l) := by
  show ((rivSliceLen (l.map f).length).andThen (rivAddSeq (l.map f))).Writes _
  rw [List.length_map]; exact writes_andThen (writes_rivLen _) (writes_map h)

/-! ## The parts of a transaction -/

theorem writes_hash (h : Hash) : h.val.Writes fun _ => h.value := writes_obj (writes_ok _) (writes_ok _)
theorem writes_raw (b : Bytes) : (Val.obj (.ok b) (.ok b)).Writes fun _ => b := writes_obj (writes_ok _) (writes_ok _)
theorem writes_int (i : Int) : (Val.int i).Writes fun _ => Wire.le 8 i.toNat := by
  intro F
  cases F with
  | sia => show (siaAdd _).Writes _; rw [siaAdd]; exact writes_siaInt i
  | riv => show (rivAdd _).Writes _; rw [rivAdd]; exact writes_rivInt 8 i
theorem writes_siaAddress (u : UnlockHash) : u.sia.Writes (Wire.address u) := by
  have h := u.type.toNat_lt
  unfold UnlockHash.sia siaAddByte
  simp only
  rw [if_neg (by omega)]
  refine writes_andThen (x := [u.type]) (writes_eq (writes_ok _) ?_) (writes_ok _)
  rw [le_eq]; show [UInt8.ofNat (u.type.toNat / 256 ^ 0)] = _; simp
theorem writes_rivAddress (u : UnlockHash) : u.riv.Writes (Wire.address u) :=
  writes_andThen (x := [u.type]) (writes_byte (by simp)) (writes_ok _)
theorem writes_address (u : UnlockHash) : u.val.Writes fun _ => Wire.address u := writes_obj (writes_siaAddress u) (writes_rivAddress u)
theorem writes_amountSia (n : Nat) : (amountSia n).Writes (Wire.slice .sia (Wire.be n)) := by
  have hl : (Wire.be n).length = minBytes n := by rw [← be_eq]; simp [toBytesBE]
  unfold amountSia Wire.slice
  rw [hl, be_eq]; exact writes_andThen (writes_siaLen _) (writes_ok _)
theorem writes_amountRiv (n : Nat) : (amountRiv n).Writes (Wire.slice .riv (Wire.be n)) := by
  unfold amountRiv; rw [be_eq]; exact writes_rivSlice _
theorem writes_amount {c : Currency} (h : GoodCurrency c) : c.toVal.Writes fun F => Wire.amount F c := by
  unfold Wire.amount; rw [← toInt_eq h]
  exact writes_obj (writes_amountSia _) (writes_amountRiv _)
theorem writes_stakes (b : Blockstake) : b.toVal.Writes fun F => Wire.stakes F b := writes_obj (writes_amountSia _) (writes_amountRiv _)

theorem writes_secretHash (hs : Option Bytes) : (Val.obj (hashedSecretData hs).sia (hashedSecretData hs).riv).Writes fun F =>
    match hs with | none => Wire.slice F [] | some h => h := by
  cases hs with
  | none => exact writes_obj (writes_siaSlice []) (writes_rivSlice [])
  | some b => exact writes_obj (a := .ok b) (b := .ok b) (writes_ok _) (writes_ok _)

/-- The data of a condition in a format. -/
def condIn : Wire.Format → Condition → Out
  | .sia, c => c.siaData
  | .riv, c => c.rivData
theorem kind_eq (c : Condition) : UInt8.ofNat c.type = Wire.kind c := by cases c <;> rfl

theorem writes_terms (F : Wire.Format) (c : Condition) : (condIn F c).Writes (Wire.terms F c) := by
  induction c with
  | nil => cases F <;> exact writes_ok _
  | unlockHash u => cases F with
    | sia => exact writes_siaAddress u
    | riv => exact writes_rivAddress u
  | atomicSwap s r hs t =>
    have h : (addSeqIn F [s.val, r.val, .obj (hashedSecretData hs).sia (hashedSecretData hs).riv, .int t]).Writes _ :=
      writes_cons (writes_address s F) (writes_cons (writes_address r F) (writes_cons (writes_secretHash hs F) (writes_cons (writes_int t F) (writes_nil F))))
    cases F <;> cases hs <;> exact writes_eq h (by simp [Wire.terms])
  | lockTime l c ih =>
    cases F with
    | sia =>
      show (((siaInt l).andThen (.ok [UInt8.ofNat c.type])).andThen c.siaData).Writes _
      rw [kind_eq]
      exact writes_eq (writes_andThen (writes_andThen (writes_siaInt l) (writes_ok _)) ih) (by simp [Wire.terms])
    | riv =>
      exact writes_eq (writes_andThen (writes_andThen (writes_rivInt 8 l) (writes_byte (v := c.type) (kind_eq c))) ih) (by simp [Wire.terms])
  | multiSig owners n =>
    cases F with
    | sia => exact writes_andThen (writes_siaInt n) (writes_siaList fun u _ => writes_address u .sia)
    | riv => exact writes_andThen (writes_rivInt 8 n) (writes_rivList fun u _ => writes_address u .riv)
theorem writes_condition (c : Condition) : c.val.Writes fun F => Wire.condition F c := by
  refine writes_obj (a := c.sia) (b := c.riv) ?_ ?_
  · unfold Condition.sia; rw [kind_eq]
    exact writes_andThen (writes_ok [_]) (writes_nested (writes_terms .sia c) (writes_siaSlice _))
  · exact writes_andThen (writes_byte (v := c.type) (kind_eq c)) (writes_nested (writes_terms .riv c) (writes_rivSlice _))

theorem writes_key (k : PublicKey) : k.val.Writes fun F => Wire.key F k := by
  obtain ⟨s, h⟩ := k
  refine writes_obj (a := PublicKey.sia ⟨s, h⟩) (b := PublicKey.riv ⟨s, h⟩) ?_ ?_
  · refine writes_eq (writes_andThen (writes_ok _) (writes_siaSlice _)) ?_
    cases s <;> simp only [Wire.key] <;> congr 1 
  · cases s <;> exact writes_andThen (x := [_]) (writes_byte rfl) (writes_ok _)
theorem writes_framed {s : Signature} (h : s.asArray = false) : s.val.Writes fun F => Wire.slice F s.value := by
  refine writes_obj (a := s.sia) (b := s.riv) (writes_siaSlice _) ?_
  unfold Signature.riv; rw [h]; exact writes_rivSlice _
theorem writes_optSig {s : Option Signature} (h : ∀ x ∈ s, x.asArray = false) : (s.getD .default).val.Writes fun F => Wire.slice F (Wire.sigBytes s) := by
  cases s with
  | none => exact writes_framed rfl
  | some x => exact writes_framed (h x rfl)

theorem writes_keySig {p : KeySig} (h : p.sig.asArray = false) : p.val.Writes fun F => Wire.key F p.key ++ Wire.slice F p.sig.value := by
  refine writes_obj ?_ ?_
  · exact writes_eq (writes_cons (F := .sia) (writes_key p.key .sia) (writes_cons (writes_framed h .sia) (writes_nil .sia))) (by simp)
  · exact writes_eq (writes_cons (F := .riv) (writes_key p.key .riv) (writes_cons (writes_framed h .riv) (writes_nil .riv))) (by simp)

/-- The data of a fulfillment in a format. -/
def fulfilIn : Wire.Format → Fulfillment → Out
  | .sia, f => f.siaData
  | .riv, f => f.rivData
theorem writes_fulfillment {f : Fulfillment} (h : Wire.Framed f) : f.val.Writes fun F => Wire.fulfillment F f := by
  have key : ∃ (k : UInt8) (d : Wire.Format → Bytes), UInt8.ofNat f.type = k ∧ (∀ F, (fulfilIn F f).Writes (d F)) ∧
      ∀ F, Wire.fulfillment F f = k :: Wire.slice F (d F) := by
    cases f with
    | single k s =>
      refine ⟨1, fun F => Wire.key F k ++ Wire.slice F (Wire.sigBytes s), rfl, fun F => ?_, fun F => rfl⟩
      have := writes_cons (writes_key k F) (writes_cons (writes_optSig h F) (writes_nil F))
      cases F <;> exact writes_eq this (by simp)
    | multi ps =>
      refine ⟨3, fun F => Wire.list F _ ps, rfl, fun F => ?_, fun F => rfl⟩
      have := writes_list (F := F) (l := ps) (f := KeySig.val) (fun p hp => writes_keySig (h p hp) F)
      cases F <;> exact this
    | swap k s sec =>
      refine ⟨2, fun F => Wire.key F k ++ Wire.slice F (Wire.sigBytes s) ++ sec.getD [], rfl, fun F => ?_, fun F => rfl⟩
      have := writes_cons (writes_key k F) (writes_cons (writes_optSig h F) (writes_cons (writes_raw (sec.getD []) F) (writes_nil F)))
      cases F <;> exact writes_eq this (by simp)
  obtain ⟨k, d, hk, hd, he⟩ := key
  simp only [he]
  refine writes_obj (a := f.sia) (b := f.riv) ?_ ?_
  · unfold Fulfillment.sia; rw [hk]
    exact writes_andThen (writes_ok [_]) (writes_nested (hd .sia) (writes_siaSlice _))
  · exact writes_andThen (writes_byte (v := f.type) hk) (writes_nested (hd .riv) (writes_rivSlice _))

theorem writes_pair {a b : Val} {x y : Wire.Format → Bytes} (ha : a.Writes x) (hb : b.Writes y) :
    (Val.obj (siaAddSeq [a, b]) (rivAddSeq [a, b])).Writes fun F => x F ++ y F := by
  refine writes_obj ?_ ?_
  · exact writes_eq (writes_cons (F := .sia) (ha .sia) (writes_cons (hb .sia) (writes_nil .sia))) (by simp)
  · exact writes_eq (writes_cons (F := .riv) (ha .riv) (writes_cons (hb .riv) (writes_nil .riv))) (by simp)
theorem writes_coinInput {ci : CoinInput} (h : Wire.Framed ci.fulfillment) : ci.val.Writes fun F => Wire.coinInput F ci :=
  writes_pair (writes_hash _) (writes_fulfillment h)
theorem writes_stakeInput {ci : StakeInput} (h : Wire.Framed ci.fulfillment) : ci.val.Writes fun F => Wire.stakeInput F ci :=
  writes_pair (writes_hash _) (writes_fulfillment h)
theorem writes_coinOutput {co : CoinOutput} (h : GoodCurrency co.value) : co.val.Writes fun F => Wire.coinOutput F co :=
  writes_pair (writes_amount h) (writes_condition _)
theorem writes_stakeOutput (o : StakeOutput) : o.val.Writes fun F => Wire.stakeOutput F o := writes_pair (writes_stakes _) (writes_condition _)

theorem goodName_ascii {s : Str} (h : GoodName s) : IsAscii s := by
  obtain ⟨-, g, gs, hg, hgs, rfl⟩ := h
  have key : ∀ g, NameGroup g → ∀ c ∈ g, c.toNat < 128 := fun g hg c hc => Props.ascii_of_letter (by
    rcases hg.2.2.2 c hc with h | h | h
    · exact .inl ((Props.isAlnum_iff c).2 (.inl h))
    · exact .inl ((Props.isAlnum_iff c).2 (.inr h))
    · exact .inr (.inl h))
  intro c hc
  rcases List.mem_append.1 hc with hc | hc
  · exact key g hg c hc
  · obtain ⟨x, hx, hc⟩ := List.mem_flatMap.1 hc
    rcases List.mem_cons.1 hc with rfl | hc
    · decide
    · exact key x (hgs x hx) c hc
theorem madeName_ascii {n : BotName} (h : MadeName n) : IsAscii n.value := by
  rcases h with h | ⟨s, h⟩
  · rw [h]; intro c hc; cases hc
  · obtain ⟨h1, h2⟩ := Props.C67_bot_name_partial s
    rw [h1 n h]
    rcases h2.1 ⟨n, h⟩ with h | ⟨t, rfl, -, h⟩
    · exact goodName_ascii h
    · intro c hc
      rcases List.mem_append.1 hc with hc | hc
      · exact goodName_ascii h c hc
      · simp at hc; subst hc; decide
theorem utf8_eq_ascii : ∀ {s : Str}, IsAscii s → utf8 s = Wire.ascii s
  | [], _ => rfl
  | c :: s, h => by
    have hc := h c (by simp)
    have ih := utf8_eq_ascii (s := s) (fun x hx => h x (by simp [hx]))
    have h1 : String.utf8EncodeChar c = [UInt8.ofNat c.toNat] := by
      unfold String.utf8EncodeChar
      simp only
      rw [if_pos (by show c.val.toNat ≤ 0x7f; have : c.val.toNat = c.toNat := rfl; omega)]
      rfl
    unfold utf8 at ih ⊢
    rw [List.flatMap_cons, h1, ih]; rfl
theorem writes_name {n : BotName} (h : MadeName n) : (addIn .riv n.val).Writes (Wire.name n) := by
  have ha := utf8_eq_ascii (madeName_ascii h)
  show (rivAdd (.obj (siaSliceStr n.value) (rivSliceStr n.value))).Writes _
  rw [rivAdd_obj]
  unfold rivSliceStr Wire.name Wire.slice
  rw [ha]
  have hl : (Wire.ascii n.value).length = n.value.length := by simp [Wire.ascii]
  rw [hl]
  exact writes_andThen (writes_rivLen _) (writes_ok _)
theorem writes_net (a : NetAddr) : (addIn .riv a.val).Writes (Wire.netAddress a) := by
  show (rivAdd (.obj a.sia a.riv)).Writes _
  rw [rivAdd_obj]
  obtain ⟨k, d⟩ := a
  refine writes_andThen (x := [_]) (writes_byte ?_) (writes_ok _)
  simp only [Int.toNat_natCast]
  rw [or_shl _ _ 2 (by cases k <;> decide), Nat.mul_comm]
  cases k <;> rfl
end TF
