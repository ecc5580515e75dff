import Verif.Spec.Encodable
import Verif.Lemmas.Encoders
import Verif.Lemmas.Currency
import Verif.Props.ThreeBot
/-! # Encoders do not raise on what fits, and what they write is short -/
namespace TF
open Spec

/-- The calls returned, having written at most `n` bytes. -/
def Out.Within (o : Out) (n : Nat) : Prop := o.err = none ∧ o.bytes.length ≤ n

theorem Out.Within.mono {o : Out} {m n : Nat} (h : o.Within m) (hmn : m ≤ n) : o.Within n := ⟨h.1, Nat.le_trans h.2 hmn⟩
theorem Out.Within.toRes {o : Out} {n : Nat} (h : o.Within n) : ∃ b, o.toRes = .ok b ∧ b.length ≤ n := by
  refine ⟨o.bytes, ?_, h.2⟩
  unfold Out.toRes; rw [h.1]
theorem Out.Within.eq {o : Out} {n : Nat} (h : o.Within n) : o = .ok o.bytes := by
  obtain ⟨b, e⟩ := o
  obtain ⟨h, -⟩ := h; simp only at h; subst h; rfl

theorem within_ok {b : Bytes} {n : Nat} (h : b.length ≤ n) : (Out.ok b).Within n := ⟨rfl, h⟩
theorem within_andThen {a b : Out} {m n : Nat} (ha : a.Within m) (hb : b.Within n) : (a.andThen b).Within (m + n) := by
  rw [ha.eq, hb.eq]
  refine ⟨rfl, ?_⟩
  simp only [Out.andThen, Out.ok, List.length_append]
  exact Nat.add_le_add ha.2 hb.2
theorem within_type {a : Out} {n : Nat} (ha : a.Within n) : a.typeErrorAsValueError.Within n := by
  unfold Out.typeErrorAsValueError
  rw [if_neg (by rw [ha.1]; simp)]; exact ha
theorem within_nested {a : Out} {n m : Nat} {f : Bytes → Out} (ha : a.Within n) (hf : ∀ b, b.length ≤ n → (f b).Within m) : (a.nested f).Within m := by
  unfold Out.nested; rw [ha.1]; exact hf _ ha.2

theorem le_length (n : Nat) (v : Nat) : (toBytesLE n v).length = n := by simp

theorem within_siaInt {v : Int} (h : Word v) : (siaInt v).Within 8 := by
  rw [siaInt_ok h.1 h.2]; exact within_ok (by simp)
theorem within_rivInt {n : Nat} {v : Int} (h0 : 0 ≤ v) (h : v < 2 ^ (8 * n)) : (rivInt n v).Within n := by
  rw [rivInt_ok h0 h]; exact within_ok (by simp)
theorem within_siaLen {α : Type} {l : List α} (h : Few l) : (siaInt l.length).Within 8 :=
  within_siaInt ⟨by omega, by have : l.length ≤ 2 ^ 20 := h; omega⟩
theorem within_rivLen {n : Nat} (h : n < 2 ^ 29) : (rivSliceLen n).Within 4 := by
  rw [rivSliceLen_ok h]
  refine within_ok ?_
  rw [rivLenBytes_length]; split <;> try split <;> try split
  all_goals omega
theorem within_siaSlice {b : Bytes} (h : b.length < 2 ^ 64) : (siaSliceBytes b).Within (8 + b.length) :=
  within_andThen (within_siaInt ⟨by omega, by omega⟩) (within_ok (Nat.le_refl _))
theorem within_rivSlice {b : Bytes} (h : b.length < 2 ^ 29) : (rivSliceBytes b).Within (4 + b.length) :=
  within_andThen (within_rivLen h) (within_ok (Nat.le_refl _))

/-! ## Sequences -/

theorem within_siaCons {v : Val} {vs : List Val} {m n : Nat} (h : (siaAdd v).Within m) (ht : (siaAddSeq vs).Within n) : (siaAddSeq (v :: vs)).Within (m + n) := by
  rw [siaAddSeq]; exact within_andThen h ht
theorem within_rivCons {v : Val} {vs : List Val} {m n : Nat} (h : (rivAdd v).Within m) (ht : (rivAddSeq vs).Within n) : (rivAddSeq (v :: vs)).Within (m + n) := by
  rw [rivAddSeq]; exact within_andThen h ht
theorem within_siaNil : (siaAddSeq []).Within 0 := by rw [siaAddSeq]; exact within_ok (by simp)
theorem within_rivNil : (rivAddSeq []).Within 0 := by rw [rivAddSeq]; exact within_ok (by simp)

theorem within_siaMap {α : Type} {f : α → Val} {n : Nat} : ∀ {l : List α}, (∀ x ∈ l, (siaAdd (f x)).Within n) → (siaAddSeq (l.map f)).Within (l.length * n)
  | [], _ => within_siaNil.mono (by simp)
  | x :: l, h => by
    rw [List.map_cons]
    refine (within_siaCons (h x (by simp)) (within_siaMap fun y hy => h y (by simp [hy]))).mono ?_
    rw [List.length_cons, Nat.succ_mul]; omega
theorem within_rivMap {α : Type} {f : α → Val} {n : Nat} : ∀ {l : List α}, (∀ x ∈ l, (rivAdd (f x)).Within n) → (rivAddSeq (l.map f)).Within (l.length * n)
  | [], _ => within_rivNil.mono (by simp)
  | x :: l, h => by
    rw [List.map_cons]
    refine (within_rivCons (h x (by simp)) (within_rivMap fun y hy => h y (by simp [hy]))).mono ?_
    rw [List.length_cons, Nat.succ_mul]; omega

theorem few_mul {α : Type} {l : List α} (h : Few l) (n : Nat) : l.length * n ≤ 2 ^ 20 * n := Nat.mul_le_mul_right _ h

theorem within_siaList {α : Type} {f : α → Val} {l : List α} {n : Nat} (hl : Few l) (h : ∀ x ∈ l, (siaAdd (f x)).Within n) :
    (siaAdd (.seq (l.map f))).Within (8 + 2 ^ 20 * n) := by
  rw [siaAdd]
  refine within_type (within_andThen (within_siaLen (by rw [Few, List.length_map]; exact hl)) ((within_siaMap h).mono (few_mul hl n)))
theorem within_siaSliceList {α : Type} {f : α → Val} {l : List α} {n : Nat} (hl : Few l) (h : ∀ x ∈ l, (siaAdd (f x)).Within n) :
    (siaAddSlice (.seq (l.map f))).Within (8 + 2 ^ 20 * n) :=
  within_andThen (within_siaLen (by rw [Few, List.length_map]; exact hl)) ((within_siaMap h).mono (few_mul hl n))
theorem within_rivSliceList {α : Type} {f : α → Val} {l : List α} {n : Nat} (hl : Few l) (h : ∀ x ∈ l, (rivAdd (f x)).Within n) :
    (rivAddSlice (.seq (l.map f))).Within (4 + 2 ^ 20 * n) :=
  within_andThen (within_rivLen (by rw [List.length_map]; have : l.length ≤ 2 ^ 20 := hl; omega)) ((within_rivMap h).mono (few_mul hl n))
theorem within_rivList {α : Type} {f : α → Val} {l : List α} {n : Nat} (hl : Few l) (h : ∀ x ∈ l, (rivAdd (f x)).Within n) :
    (rivAdd (.seq (l.map f))).Within (4 + 2 ^ 20 * n) := by
  rw [rivAdd]
  exact within_type (within_rivSliceList hl h)

theorem within_seqOut_nil : (seqOut []).Within 0 := within_ok (by simp)
theorem within_seqOut_cons {o : Out} {os : List Out} {m n : Nat} (h : o.Within m) (ht : (seqOut os).Within n) : (seqOut (o :: os)).Within (m + n) :=
  within_andThen h ht

theorem siaAdd_obj (a b : Out) : siaAdd (.obj a b) = a := by rw [siaAdd]
theorem rivAdd_obj (a b : Out) : rivAdd (.obj a b) = b := by rw [rivAdd]
theorem within_siaWord {v : Int} (h : Word v) : (siaAdd (.int v)).Within 8 := by rw [siaAdd]; exact within_siaInt h
theorem within_rivWord {v : Int} (h : Word v) : (rivAdd (.int v)).Within 8 := by rw [rivAdd]; exact within_rivInt h.1 (by have := h.2; omega)

/-! ## The parts of a transaction -/

/-- Both encodings return and write at most `n` bytes. -/
def Val.Within (v : Val) (n : Nat) : Prop := (siaAdd v).Within n ∧ (rivAdd v).Within n

theorem Val.Within.mono {v : Val} {m n : Nat} (h : v.Within m) (hmn : m ≤ n) : v.Within n := ⟨h.1.mono hmn, h.2.mono hmn⟩
theorem within_obj {a b : Out} {n : Nat} (ha : a.Within n) (hb : b.Within n) : (Val.obj a b).Within n := by
  unfold Val.Within; rw [siaAdd_obj, rivAdd_obj]; exact ⟨ha, hb⟩
theorem within_hash {h : Hash} (hh : HashFits h) : h.val.Within 32 := within_obj (within_ok hh) (within_ok hh)
theorem within_address {u : UnlockHash} (h : HashFits u.hash) : u.val.Within 33 := by
  have ht : u.type.toNat < 256 := u.type.toNat_lt
  refine within_obj (a := u.sia) (b := u.riv) ?_ ?_
  · refine (within_andThen (m := 1) (n := 32) ?_ (within_ok h)).mono (by omega)
    unfold siaAddByte; simp only
    rw [if_neg (by omega)]; exact within_ok (by simp)
  · exact (within_andThen (m := 1) (n := 32) (within_rivInt (by omega) (by omega)) (within_ok h)).mono (by omega)
theorem within_amountN {n : Nat} (h : n < 2 ^ 256) : (amountSia n).Within 40 ∧ (amountRiv n).Within 36 := by
  have hm : minBytes n ≤ 32 := by
    refine Decidable.byContradiction fun hc => ?_
    obtain ⟨-, h2, h3⟩ := minBytes_spec n
    have hn : n ≠ 0 := fun h0 => by rw [h3.mp h0] at hc; omega
    have : 256 ^ 32 ≤ 256 ^ (minBytes n - 1) := Nat.pow_le_pow_right (by omega) (by omega)
    have := h2 hn
    have e : (256 : Nat) ^ 32 = 2 ^ 256 := by decide
    omega
  have hl : (toBytesBE (minBytes n) n).length = minBytes n := by simp [toBytesBE]
  constructor
  · exact (within_andThen (m := 8) (n := 32) (within_siaInt ⟨by omega, by omega⟩) (within_ok (by omega))).mono (by omega)
  · exact (within_rivSlice (by omega)).mono (by omega)
theorem within_amount {c : Currency} (h : AmountFits c) : c.toVal.Within 40 := by
  have := within_amountN h.2
  rw [← toInt_eq h.1] at this
  exact within_obj this.1 (this.2.mono (by omega))
theorem within_stake {b : Blockstake} (h : b.value < 2 ^ 256) : b.toVal.Within 40 :=
  within_obj (within_amountN h).1 ((within_amountN h).2.mono (by omega))

theorem within_seq4 {a b c d : Val} {n : Nat} (ha : a.Within n) (hb : b.Within n) (hc : c.Within n) (hd : d.Within n) :
    (siaAddSeq [a, b, c, d]).Within (4 * n) ∧ (rivAddSeq [a, b, c, d]).Within (4 * n) :=
  ⟨(within_siaCons ha.1 (within_siaCons hb.1 (within_siaCons hc.1 (within_siaCons hd.1 within_siaNil)))).mono (by omega),
   (within_rivCons ha.2 (within_rivCons hb.2 (within_rivCons hc.2 (within_rivCons hd.2 within_rivNil)))).mono (by omega)⟩
theorem within_seq2 {a b : Val} {m n : Nat} (ha : a.Within m) (hb : b.Within n) :
    (siaAddSeq [a, b]).Within (m + n) ∧ (rivAddSeq [a, b]).Within (m + n) :=
  ⟨(within_siaCons ha.1 (within_siaCons hb.1 within_siaNil)).mono (by omega),
   (within_rivCons ha.2 (within_rivCons hb.2 within_rivNil)).mono (by omega)⟩

theorem within_secretHash {hs : Option Bytes} (h : ∀ b, hs = some b → b.length ≤ 32) :
    (Val.obj (hashedSecretData hs).sia (hashedSecretData hs).riv).Within 40 := by
  cases hs with
  | none => exact within_obj ((within_siaSlice (b := []) (by simp)).mono (by simp)) ((within_rivSlice (b := []) (by simp)).mono (by simp))
  | some b =>
    have := h b rfl
    refine within_obj (a := .ok b) (b := .ok b) (within_ok (by omega)) (within_ok (by omega))

theorem within_swapData {s r : UnlockHash} {hs : Option Bytes} {t : Int} (h1 : HashFits s.hash) (h2 : HashFits r.hash)
    (h3 : ∀ b, hs = some b → b.length ≤ 32) (h4 : Word t) :
    (siaAddSeq [s.val, r.val, .obj (hashedSecretData hs).sia (hashedSecretData hs).riv, .int t]).Within 160 ∧ (atomicSwapRiv s r hs t).Within 160 :=
  within_seq4 (n := 40) ((within_address h1).mono (by omega)) ((within_address h2).mono (by omega)) (within_secretHash h3)
    ⟨(within_siaWord h4).mono (by omega), (within_rivWord h4).mono (by omega)⟩

theorem within_innerData {c : Condition} (h : ConditionFits c) (hc : c.type ≠ 3) : c.siaData.Within (2 ^ 26 - 9) ∧ c.rivData.Within (2 ^ 26 - 9) := by
  cases c with
  | nil => exact ⟨within_ok (by simp), within_ok (by simp)⟩
  | unlockHash u =>
    have := within_address h
    unfold Val.Within UnlockHash.val at this; rw [siaAdd_obj, rivAdd_obj] at this
    exact ⟨this.1.mono (by omega), this.2.mono (by omega)⟩
  | atomicSwap s r hs t =>
    have := within_swapData h.1 h.2.1 h.2.2.1 h.2.2.2
    exact ⟨this.1.mono (by omega), this.2.mono (by omega)⟩
  | multiSig owners n =>
    obtain ⟨h1, h2, h3⟩ := h
    exact ⟨(within_andThen (within_siaInt h3) (within_siaSliceList (n := 33) h1 fun u hu => (within_address (h2 u hu)).1)).mono (by omega),
      (within_andThen (within_rivInt h3.1 (by have := h3.2; omega)) (within_rivSliceList (n := 33) h1 fun u hu => (within_address (h2 u hu)).2)).mono (by omega)⟩
  | lockTime l c => exact absurd rfl hc

theorem type_lt (c : Condition) : (c.type : Int) < 2 ^ (8 * 1) := by cases c <;> simp [Condition.type]

theorem within_condData {c : Condition} (h : ConditionFits c) : c.siaData.Within (2 ^ 26) ∧ c.rivData.Within (2 ^ 26) := by
  by_cases hc : c.type = 3
  · cases c with
    | lockTime l c =>
      obtain ⟨h0, h1, h2⟩ := h
      have := within_innerData h2 h1
      exact ⟨(within_andThen (within_andThen (within_siaInt h0) (within_ok (n := 1) (by simp))) this.1).mono (by omega),
        (within_andThen (within_andThen (within_rivInt (n := 8) h0.1 (by have := h0.2; omega)) (within_rivInt (n := 1) (by omega) (type_lt c))) this.2).mono (by omega)⟩
    | _ => cases hc
  · have := within_innerData h hc
    exact ⟨this.1.mono (by omega), this.2.mono (by omega)⟩

theorem within_siaNested {o : Out} {n : Nat} (h : o.Within n) (hn : n < 2 ^ 64) : (o.nested siaSliceBytes).Within (8 + n) :=
  within_nested h fun b hb => (within_siaSlice (by omega)).mono (by omega)
theorem within_rivNested {o : Out} {n : Nat} (h : o.Within n) (hn : n < 2 ^ 29) : (o.nested rivSliceBytes).Within (4 + n) :=
  within_nested h fun b hb => (within_rivSlice (by omega)).mono (by omega)

theorem within_condition {c : Condition} (h : ConditionFits c) : c.val.Within (2 ^ 27) := by
  have := within_condData h
  refine within_obj (a := c.sia) (b := c.riv) ?_ ?_
  · exact (within_andThen (within_ok (n := 1) (by simp)) (within_siaNested this.1 (by omega))).mono (by omega)
  · exact (within_andThen (within_rivInt (n := 1) (by omega) (type_lt c)) (within_rivNested this.2 (by omega))).mono (by omega)

theorem within_key {k : PublicKey} (h : KeyFits k) : k.val.Within 56 := by
  have h : k.hash.value.length ≤ 32 := h
  refine within_obj (a := k.sia) (b := k.riv) ?_ ?_
  · exact (within_andThen (m := 16) (n := 40) (within_ok (by cases k.spec <;> decide)) ((within_siaSlice (by omega)).mono (by omega))).mono (by omega)
  · exact (within_andThen (m := 1) (n := 32) (within_rivInt (by omega) (by cases k.spec <;> decide)) (within_ok h)).mono (by omega)
theorem within_sig {s : Signature} (h : SigFits s) : s.val.Within 72 := by
  have h : s.value.length ≤ 64 := h
  refine within_obj (a := s.sia) (b := s.riv) ((within_siaSlice (by omega)).mono (by omega)) ?_
  unfold Signature.riv; split
  · exact within_ok (by omega)
  · exact (within_rivSlice (by omega)).mono (by omega)
theorem sigFits_getD {s : Option Signature} (h : ∀ x, s = some x → SigFits x) : SigFits (s.getD .default) := by
  cases s with
  | none => exact Nat.zero_le _
  | some x => exact h x rfl
theorem within_secret {b : Bytes} (h : b.length ≤ 32) : (secretVal b).Within 32 := within_obj (within_ok h) (within_ok h)

theorem within_keySig {p : KeySig} (h : KeyFits p.key ∧ SigFits p.sig) : p.val.Within 128 := by
  have := within_seq2 (within_key h.1) (within_sig h.2)
  exact within_obj this.1 this.2

theorem within_fulfillment {f : Fulfillment} (h : FulfillmentFits f) : f.val.Within (2 ^ 28) := by
  have key : f.siaData.Within (2 ^ 27 + 200) ∧ f.rivData.Within (2 ^ 27 + 200) := by
    cases f with
    | single k s =>
      have := within_seq2 (within_key h.1) (within_sig (sigFits_getD h.2))
      exact ⟨this.1.mono (by omega), this.2.mono (by omega)⟩
    | multi ps => exact ⟨(within_siaList h.1 fun p hp => (within_keySig (h.2 p hp)).1).mono (by omega),
        (within_rivList h.1 fun p hp => (within_keySig (h.2 p hp)).2).mono (by omega)⟩
    | swap k s sec =>
      have h1 := within_key h.1
      have h2 := within_sig (sigFits_getD h.2.1)
      have h3 : (secretVal (sec.getD [])).Within 32 := within_secret (by cases sec with
        | none => simp
        | some b => exact h.2.2 b rfl)
      exact ⟨(within_siaCons h1.1 (within_siaCons h2.1 (within_siaCons h3.1 within_siaNil))).mono (by omega),
        (within_rivCons h1.2 (within_rivCons h2.2 (within_rivCons h3.2 within_rivNil))).mono (by omega)⟩
  refine within_obj (a := f.sia) (b := f.riv) ?_ ?_
  · exact (within_andThen (within_ok (n := 1) (by simp)) (within_siaNested key.1 (by omega))).mono (by omega)
  · exact (within_andThen (within_rivInt (n := 1) (by omega) (by cases f <;> simp [Fulfillment.type])) (within_rivNested key.2 (by omega))).mono (by omega)

theorem within_input {ci : CoinInput} (h : InputFits ci) : ci.val.Within (2 ^ 29) := by
  have := within_seq2 (within_hash h.1) (within_fulfillment h.2)
  exact within_obj (this.1.mono (by omega)) (this.2.mono (by omega))
theorem within_stakeInput {ci : StakeInput} (h : StakeInputFits ci) : ci.val.Within (2 ^ 29) := by
  have := within_seq2 (within_hash h.1) (within_fulfillment h.2)
  exact within_obj (this.1.mono (by omega)) (this.2.mono (by omega))
theorem within_output {co : CoinOutput} (h : OutputFits co) : co.val.Within (2 ^ 28) := by
  have := within_seq2 (within_amount h.1) (within_condition h.2)
  exact within_obj (this.1.mono (by omega)) (this.2.mono (by omega))
theorem within_stakeOutput {co : StakeOutput} (h : StakeOutputFits co) : co.val.Within (2 ^ 28) := by
  have := within_seq2 (within_stake h.1) (within_condition h.2)
  exact within_obj (this.1.mono (by omega)) (this.2.mono (by omega))
theorem within_name {n : BotName} (h : MadeName n) : n.val.Within 300 := by
  have hl : n.value.length ≤ 63 := by
    rcases h with h | ⟨s, h⟩
    · rw [h]; simp
    · unfold BotName.new at h; simp only at h
      split at h
      · cases h
      · split at h
        · cases h
        · cases h; simp only; omega
  have hu : (utf8 n.value).length ≤ 4 * n.value.length := by
    generalize n.value = s
    induction s with
    | nil => simp [utf8]
    | cons c s ih =>
      have : utf8 (c :: s) = utf8 [c] ++ utf8 s := by simp [utf8]
      rw [this, List.length_append, List.length_cons]
      have : (utf8 [c]).length ≤ 4 := by
        simp [utf8, Char.utf8Size_le_four]
      omega
  refine within_obj (a := siaSliceStr n.value) (b := rivSliceStr n.value) ?_ ?_
  · exact (within_andThen (m := 8) (n := 252) (within_siaInt ⟨by omega, by omega⟩) (within_ok (by omega))).mono (by omega)
  · exact (within_andThen (m := 4) (n := 252) (within_rivLen (by omega)) (within_ok (by omega))).mono (by omega)
theorem within_net {L : IpLib} (hL : LawfulIp L) {a : NetAddr} (h : MadeNet L a) : a.val.Within 64 := by
  obtain ⟨v, hv, h⟩ := h
  have hl : a.addr.length ≤ 63 := by rcases Props.net_new L hL v hv a h with h | h | h <;> omega
  have hk : a.kind.toNat < 4 := by cases a.kind <;> decide
  have hr : a.riv.Within 64 := by
    refine (within_andThen (m := 1) (n := 63) (within_rivInt (by omega) ?_) (within_ok hl)).mono (by omega)
    rw [or_shl _ _ 2 hk]; omega
  exact within_obj (a := a.sia) (b := a.riv) (within_nested hr fun b hb => within_ok hb) hr
theorem within_data {b : Bytes} (h : b.length ≤ 2 ^ 32) : (siaAdd (dataVal b)).Within (2 ^ 33) := by
  rw [dataVal, siaAdd_obj]; exact (within_siaSlice (by omega)).mono (by omega)

end TF
