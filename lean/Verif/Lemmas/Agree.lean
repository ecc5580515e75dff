import Verif.Lemmas.SelfDelim
import Verif.Lemmas.Address
import Verif.Lemmas.Currency
import Verif.Props.Primitive
import Verif.Props.Encoders
import Verif.Props.ThreeBot
import Verif.Spec.Contents
/-! # Two encodings that agree, piece by piece -/
namespace TF
open Spec

/-- Wherever the two encodings start a common stream, `Q` holds and the rest of the stream is the same. -/
def Agree (Q : Prop) (o o' : Out) : Prop := ∀ x y r s, o.toRes = .ok x → o'.toRes = .ok y → x ++ r = y ++ s → Q ∧ r = s

theorem Agree.mono {Q R : Prop} {o o' : Out} (h : Agree Q o o') (hq : Q → R) : Agree R o o' := fun x y r s h1 h2 h3 =>
  ⟨hq (h x y r s h1 h2 h3).1, (h x y r s h1 h2 h3).2⟩

theorem Agree.same (o : Out) : Agree True o o := by
  intro x y r s h1 h2 h3
  rw [h1] at h2
  cases h2
  exact ⟨trivial, List.append_cancel_left h3⟩

theorem Agree.of {α : Type} {P : α → Prop} {enc : α → Out} (h : SD P enc) {a b : α} (ha : P a) (hb : P b) :
    Agree (a = b) (enc a) (enc b) := fun x y r s h1 h2 h3 => h a b x y r s ha hb h1 h2 h3

theorem Agree.andThen {Q R : Prop} {o o' p p' : Out} (h1 : Agree Q o o') (h2 : Agree R p p') : Agree (Q ∧ R) (o.andThen p) (o'.andThen p') := by
  intro x y r s hx hy h
  obtain ⟨x1, x2, a1, a2, rfl⟩ := andThen_ok.1 hx
  obtain ⟨y1, y2, b1, b2, rfl⟩ := andThen_ok.1 hy
  rw [List.append_assoc, List.append_assoc] at h
  obtain ⟨q, h⟩ := h1 _ _ _ _ a1 b1 h
  obtain ⟨q', h⟩ := h2 _ _ _ _ a2 b2 h
  exact ⟨⟨q, q'⟩, h⟩

/-- As `andThen`, where the second part only has to agree if the first does. -/
theorem Agree.andThen' {Q R : Prop} {o o' p p' : Out} (h1 : Agree Q o o') (h2 : Q → Agree R p p') : Agree (Q ∧ R) (o.andThen p) (o'.andThen p') := by
  intro x y r s hx hy h
  obtain ⟨x1, x2, a1, a2, rfl⟩ := andThen_ok.1 hx
  obtain ⟨y1, y2, b1, b2, rfl⟩ := andThen_ok.1 hy
  rw [List.append_assoc, List.append_assoc] at h
  obtain ⟨q, h⟩ := h1 _ _ _ _ a1 b1 h
  obtain ⟨q', h⟩ := h2 q _ _ _ _ a2 b2 h
  exact ⟨⟨q, q'⟩, h⟩

theorem Agree.nil : Agree True (seqOut []) (seqOut []) := Agree.same _
theorem Agree.cons {Q R : Prop} {o o' : Out} {os os' : List Out} (h1 : Agree Q o o') (h2 : Agree R (seqOut os) (seqOut os')) :
    Agree (Q ∧ R) (seqOut (o :: os)) (seqOut (o' :: os')) := Agree.andThen h1 h2

theorem Agree.done {Q : Prop} {o o' : Out} (h : Agree Q o o') {x : Bytes} (h1 : o.toRes = .ok x) (h2 : o'.toRes = .ok x) : Q :=
  (h x x [] [] h1 h2 rfl).1

theorem toRes_tev {o : Out} {x : Bytes} : o.typeErrorAsValueError.toRes = .ok x ↔ o.toRes = .ok x := by
  obtain ⟨b, e⟩ := o
  unfold Out.typeErrorAsValueError
  split
  · rename_i h; simp only at h; subst h; simp [Out.toRes]
  · rfl
theorem Agree.tev {Q : Prop} {o o' : Out} (h : Agree Q o o') : Agree Q o.typeErrorAsValueError o'.typeErrorAsValueError :=
  fun x y r s h1 h2 h3 => h x y r s (toRes_tev.1 h1) (toRes_tev.1 h2) h3

/-- Lists of the same length, element by element. -/
theorem Agree.seq {α κ : Type} {key : α → κ} {enc : α → Out} {seq : List α → Out}
    (h0 : seq [] = .ok []) (h1 : ∀ a l, seq (a :: l) = (enc a).andThen (seq l)) :
    ∀ l l' : List α, l.length = l'.length → (∀ a ∈ l, ∀ b ∈ l', Agree (key a = key b) (enc a) (enc b)) →
      Agree (l.map key = l'.map key) (seq l) (seq l')
  | [], [], _, _ => (Agree.same _).mono fun _ => rfl
  | a :: l, b :: l', hl, h => by
    rw [h1, h1]
    exact ((h a (by simp) b (by simp)).andThen (Agree.seq h0 h1 l l' (by simpa using hl) fun a ha b hb => h a (by simp [ha]) b (by simp [hb]))).mono
      fun ⟨e, e'⟩ => by simp [e, e']
  | [], _ :: _, hl, _ => by simp at hl
  | _ :: _, [], hl, _ => by simp at hl

theorem agree_siaLen (m n : Nat) : Agree (m = n) (siaInt m) (siaInt n) := Agree.of sd_siaLen trivial trivial
theorem agree_rivLen (m n : Nat) : Agree (m = n) (rivSliceLen m) (rivSliceLen n) := Agree.of sd_rivSliceLen trivial trivial
theorem agree_rivInt (k : Nat) (m n : Int) : Agree (m = n) (rivInt k m) (rivInt k n) := Agree.of (sd_rivInt k) trivial trivial
theorem agree_rivLen64 (m n : Nat) : Agree (m = n) (rivInt64 m) (rivInt64 n) := (agree_rivInt 8 m n).mono fun h => by omega

theorem agree_siaSlice {α κ : Type} {key : α → κ} (f : α → Val) (l l' : List α)
    (h : ∀ a ∈ l, ∀ b ∈ l', Agree (key a = key b) (siaAdd (f a)) (siaAdd (f b))) :
    Agree (l.map key = l'.map key) (siaAddSlice (.seq (l.map f))) (siaAddSlice (.seq (l'.map f))) := by
  simp only [siaAddSlice, List.length_map]
  exact ((agree_siaLen l.length l'.length).andThen' fun e =>
    Agree.seq (enc := fun a => siaAdd (f a)) (seq := fun l => siaAddSeq (l.map f)) rfl (fun _ _ => rfl) l l' e h).mono fun h => h.2

theorem agree_rivSeq {α κ : Type} {key : α → κ} (f : α → Val) (l l' : List α)
    (h : ∀ a ∈ l, ∀ b ∈ l', Agree (key a = key b) (rivAdd (f a)) (rivAdd (f b))) :
    Agree (l.map key = l'.map key) (rivAdd (.seq (l.map f))) (rivAdd (.seq (l'.map f))) := by
  simp only [rivAdd, List.length_map]
  exact (((agree_rivLen l.length l'.length).andThen' fun e =>
    Agree.seq (enc := fun a => rivAdd (f a)) (seq := fun l => rivAddSeq (l.map f)) rfl (fun _ _ => rfl) l l' e h).mono fun h => h.2).tev

theorem agree_id {a b : Hash} (ha : a.value.length = 32) (hb : b.value.length = 32) : Agree (a = b) (.ok a.value) (.ok b.value) :=
  (Agree.of (sd_fixed 32) ha hb).mono fun h => by cases a; cases b; simpa using h
theorem agree_idsSia {l l' : List Hash} (h : KnownIds l) (h' : KnownIds l') : Agree (l = l') (idsSia l) (idsSia l') :=
  ((agree_siaLen l.length l'.length).andThen' fun e =>
    (Agree.seq (key := id) (enc := fun a => siaAdd (Hash.val a)) (seq := fun l => siaAddSeq (l.map Hash.val)) rfl (fun _ _ => rfl) l l' e
      fun a ha b hb => agree_id (h a ha) (h' b hb)).mono fun h => by simpa using h).mono fun h => h.2
theorem agree_idsRiv {l l' : List Hash} (h : KnownIds l) (h' : KnownIds l') : Agree (l = l') (idsRiv l) (idsRiv l') :=
  ((agree_rivLen64 l.length l'.length).andThen' fun e =>
    (Agree.seq (key := id) (enc := fun a => rivAdd (Hash.val a)) (seq := fun l => rivAddSeq (l.map Hash.val)) rfl (fun _ _ => rfl) l l' e
      fun a ha b hb => agree_id (h a ha) (h' b hb)).mono fun h => by simpa using h).mono fun h => h.2

theorem agree_amountSia (m n : Nat) : Agree (m = n) (amountSia m) (amountSia n) := Agree.of Props.C19_amount_self_delimiting.1 trivial trivial
theorem agree_amountRiv (m n : Nat) : Agree (m = n) (amountRiv m) (amountRiv n) := Agree.of Props.C19_amount_self_delimiting.2 trivial trivial
theorem agree_curSia {a b : Currency} (ha : GoodCurrency a) (hb : GoodCurrency b) : Agree (amount a = amount b) (siaAdd a.toVal) (siaAdd b.toVal) := by
  simp only [Currency.toVal, siaAdd, Currency.sia, toInt_eq ha, toInt_eq hb]; exact agree_amountSia _ _
theorem agree_curRiv {a b : Currency} (ha : GoodCurrency a) (hb : GoodCurrency b) : Agree (amount a = amount b) (rivAdd a.toVal) (rivAdd b.toVal) := by
  simp only [Currency.toVal, rivAdd, Currency.riv, toInt_eq ha, toInt_eq hb]; exact agree_amountRiv _ _
theorem agree_condSia {a b : Condition} (ha : FullCondition a) (hb : FullCondition b) : Agree (a = b) (siaAdd a.val) (siaAdd b.val) :=
  Agree.of sd_condition.1 ha hb
theorem agree_condRiv {a b : Condition} (ha : FullCondition a) (hb : FullCondition b) : Agree (a = b) (rivAdd a.val) (rivAdd b.val) :=
  Agree.of sd_condition.2 ha hb

theorem agree_seq2Sia {Q R : Prop} {a a' b b' : Val} (h : Agree Q (siaAdd a) (siaAdd a')) (h' : Agree R (siaAdd b) (siaAdd b')) :
    Agree (Q ∧ R) (siaAddSeq [a, b]) (siaAddSeq [a', b']) :=
  (h.andThen (h'.andThen (Agree.same (siaAddSeq [])))).mono fun ⟨x, y, _⟩ => ⟨x, y⟩
theorem agree_seq2Riv {Q R : Prop} {a a' b b' : Val} (h : Agree Q (rivAdd a) (rivAdd a')) (h' : Agree R (rivAdd b) (rivAdd b')) :
    Agree (Q ∧ R) (rivAddSeq [a, b]) (rivAddSeq [a', b']) :=
  (h.andThen (h'.andThen (Agree.same (rivAddSeq [])))).mono fun ⟨x, y, _⟩ => ⟨x, y⟩
theorem agree_seq1Sia {Q : Prop} {a a' : Val} (h : Agree Q (siaAdd a) (siaAdd a')) : Agree Q (siaAddSeq [a]) (siaAddSeq [a']) :=
  (h.andThen (Agree.same (siaAddSeq []))).mono fun ⟨x, _⟩ => x

theorem agree_outSia {a b : CoinOutput} (ha : GoodOutput a) (hb : GoodOutput b) : Agree (paid a = paid b) (siaAdd a.val) (siaAdd b.val) :=
  (agree_seq2Sia (agree_curSia ha.1 hb.1) (agree_condSia ha.2 hb.2)).mono fun ⟨x, y⟩ => by simp [paid, x, y]
theorem agree_outRiv {a b : CoinOutput} (ha : GoodOutput a) (hb : GoodOutput b) : Agree (paid a = paid b) (rivAdd a.val) (rivAdd b.val) :=
  (agree_seq2Riv (agree_curRiv ha.1 hb.1) (agree_condRiv ha.2 hb.2)).mono fun ⟨x, y⟩ => by simp [paid, x, y]
theorem agree_stakeSia {a b : StakeOutput} (ha : FullCondition a.condition) (hb : FullCondition b.condition) :
    Agree (staked a = staked b) (siaAdd a.val) (siaAdd b.val) :=
  (agree_seq2Sia (a := a.value.toVal) (a' := b.value.toVal) (agree_amountSia a.value.value b.value.value) (agree_condSia ha hb)).mono
    fun ⟨x, y⟩ => by simp [staked, x, y]

theorem agree_refund {a b : Option CoinOutput} (ha : ∀ o ∈ a, GoodOutput o) (hb : ∀ o ∈ b, GoodOutput o) :
    Agree (a.map paid = b.map paid) (refundRiv a) (refundRiv b) := by
  have ne : ∀ (p p' : Out) (m n : Int), m ≠ n → Agree False ((rivInt8 m).andThen p) ((rivInt8 n).andThen p') := fun p p' m n h =>
    ((agree_rivInt 1 m n).andThen' (R := True) fun e => absurd e h).mono fun x => h x.1
  have e0 : refundRiv none = (rivInt8 0).andThen (.ok []) := by decide
  cases a with
  | none =>
    cases b with
    | none => exact (Agree.same _).mono fun _ => rfl
    | some b => rw [e0]; exact (ne _ _ 0 1 (by decide)).mono False.elim
  | some a =>
    cases b with
    | none => rw [e0]; exact (ne _ _ 1 0 (by decide)).mono False.elim
    | some b =>
      exact ((Agree.same (rivInt8 1)).andThen (agree_outRiv (ha a rfl) (hb b rfl))).mono fun ⟨_, h⟩ => by simp [h]

theorem agree_data (a b : Bytes) : Agree (a = b) (siaAdd (dataVal a)) (siaAdd (dataVal b)) := Agree.of sd_siaSliceBytes trivial trivial

theorem agree_net {L : IpLib} (hL : LawfulIp L) {a b : NetAddr} (ha : MadeNet L a) (hb : MadeNet L b) :
    Agree (a = b) (rivAdd a.val) (rivAdd b.val) := by
  obtain ⟨v, hv, hn⟩ := ha
  obtain ⟨w, hw, hm⟩ := hb
  obtain ⟨x, hx, -, dx⟩ := Props.C66_net_address_wire L hL v hv a hn
  obtain ⟨y, hy, -, dy⟩ := Props.C66_net_address_wire L hL w hw b hm
  intro x' y' r s h1 h2 h
  simp only [NetAddr.val, rivAdd, hx, hy, Out.toRes, Except.ok.injEq] at h1 h2
  subst h1 h2
  have := dx r
  rw [h, dy s] at this
  simp only [Option.some.injEq, Prod.mk.injEq] at this
  obtain ⟨e1, e2, e3⟩ := this
  refine ⟨?_, e3.symm⟩
  obtain ⟨k, l⟩ := a; obtain ⟨k', l'⟩ := b
  simp only at e1 e2
  subst e2
  have : k = k' := by revert e1; cases k <;> cases k' <;> simp [NetKind.toNat]
  rw [this]
theorem agree_name (a b : BotName) : Agree (a = b) (rivAdd a.val) (rivAdd b.val) :=
  (Agree.of (enc := fun s => rivAddSlice (.str s)) Props.C05_text_slice_unambiguous_partial.2 trivial trivial (a := a.value) (b := b.value)).mono
    fun h => by cases a; cases b; simpa using h
theorem agree_key {a b : PublicKey} (ha : FullKey a) (hb : FullKey b) : Agree (a = b) (rivAdd a.val) (rivAdd b.val) :=
  ((agree_rivInt 1 a.spec.toNat b.spec.toNat).andThen (agree_id ha hb)).mono fun ⟨h, h'⟩ => by
    obtain ⟨sa, _⟩ := a; obtain ⟨sb, _⟩ := b
    simp only at h h'
    have : sa = sb := by revert h; cases sa <;> cases sb <;> simp [KeySpec.toNat]
    rw [this, h']

theorem agree_nets {L : IpLib} (hL : LawfulIp L) {l l' : List NetAddr} (ha : ∀ x ∈ l, MadeNet L x) (hb : ∀ x ∈ l', MadeNet L x) :
    Agree (l = l') (rivAdd (.seq (l.map NetAddr.val))) (rivAdd (.seq (l'.map NetAddr.val))) :=
  (agree_rivSeq (key := id) NetAddr.val l l' fun a h b h' => agree_net hL (ha a h) (hb b h')).mono fun h => by simpa using h
theorem agree_names (l l' : List BotName) : Agree (l = l') (rivAdd (.seq (l.map BotName.val))) (rivAdd (.seq (l'.map BotName.val))) :=
  (agree_rivSeq (key := id) BotName.val l l' fun a _ b _ => agree_name a b).mono fun h => by simpa using h
theorem agree_fees {l l' : List Currency} (ha : ∀ x ∈ l, GoodCurrency x) (hb : ∀ x ∈ l', GoodCurrency x) :
    Agree (l.map amount = l'.map amount) (siaAddSlice (.seq (l.map Currency.toVal))) (siaAddSlice (.seq (l'.map Currency.toVal))) :=
  agree_siaSlice _ _ _ fun a h b h' => agree_curSia (ha a h) (hb b h')
theorem agree_outs {l l' : List CoinOutput} (ha : ∀ x ∈ l, GoodOutput x) (hb : ∀ x ∈ l', GoodOutput x) :
    Agree (l.map paid = l'.map paid) (siaAddSlice (.seq (l.map CoinOutput.val))) (siaAddSlice (.seq (l'.map CoinOutput.val))) :=
  agree_siaSlice _ _ _ fun a h b h' => agree_outSia (ha a h) (hb b h')

theorem agree_ins {l l' : Option (List CoinInput)} (ha : ∀ x ∈ l, KnownIds (x.map (·.parentId))) (hb : ∀ x ∈ l', KnownIds (x.map (·.parentId))) :
    Agree (l.map (fun l => l.map (·.parentId)) = l'.map fun l => l.map (·.parentId)) (insOrRaise l fun l => idsRiv (l.map (·.parentId)))
      (insOrRaise l' fun l => idsRiv (l.map (·.parentId))) := by
  cases l with
  | none => intro x y r s h; simp [insOrRaise, Out.raise, Out.toRes] at h
  | some l =>
    cases l' with
    | none => intro x y r s _ h; simp [insOrRaise, Out.raise, Out.toRes] at h
    | some l' => exact (agree_idsRiv (ha l rfl) (hb l' rfl)).mono fun h => by simp [h]

end TF
