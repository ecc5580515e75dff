import Verif.Lemmas.Encoders
import Verif.Model.Conditions
/-! # Composing self-delimiting encodings -/
namespace TF
open Spec

theorem toRes_ok {o : Out} {x : Bytes} : o.toRes = .ok x ↔ o = ⟨x, none⟩ := by
  obtain ⟨b, e⟩ := o
  cases e <;> simp [Out.toRes]

@[simp] theorem Out.ok_toRes (x : Bytes) : (Out.ok x).toRes = .ok x := rfl

theorem andThen_ok {a b : Out} {z : Bytes} :
    (a.andThen b).toRes = .ok z ↔ ∃ x y, a.toRes = .ok x ∧ b.toRes = .ok y ∧ z = x ++ y := by
  obtain ⟨ab, ae⟩ := a
  obtain ⟨bb, be⟩ := b
  cases ae <;> cases be <;> simp [Out.andThen, Out.toRes]
  exact ⟨fun h => h.symm, fun h => h.symm⟩

theorem nested_ok {a : Out} {f : Bytes → Out} {z : Bytes} :
    (a.nested f).toRes = .ok z ↔ ∃ x, a.toRes = .ok x ∧ (f x).toRes = .ok z := by
  obtain ⟨ab, ae⟩ := a
  cases ae <;> simp [Out.nested, Out.toRes, Out.raise]

theorem andThen_assoc (a b c : Out) : (a.andThen b).andThen c = a.andThen (b.andThen c) := by
  obtain ⟨ab, ae⟩ := a
  obtain ⟨bb, be⟩ := b
  cases ae <;> cases be <;> simp [Out.andThen]

theorem ok_nil_andThen (a : Out) : Out.andThen (.ok []) a = a := by simp [Out.andThen, Out.ok]

/-- Self-delimiting, for encodings given as encoder effects. -/
abbrev SD {α : Type} (P : α → Prop) (enc : α → Out) : Prop := SelfDelimiting P (fun a => (enc a).toRes)

theorem SD.mono {α : Type} {P Q : α → Prop} {enc : α → Out} (h : SD P enc) (hq : ∀ a, Q a → P a) : SD Q enc :=
  fun a b x y r s ha hb => h a b x y r s (hq a ha) (hq b hb)

theorem SD.inj {α : Type} {P : α → Prop} {enc : α → Out} (h : SD P enc) {a b : α} {x : Bytes} (ha : P a) (hb : P b)
    (h1 : (enc a).toRes = .ok x) (h2 : (enc b).toRes = .ok x) : a = b :=
  (h a b x x [] [] ha hb h1 h2 rfl).1

/-- Sequential composition. -/
theorem SD.prod {α β : Type} {P : α → Prop} {Q : β → Prop} {f : α → Out} {g : β → Out} (hf : SD P f) (hg : SD Q g) :
    SD (fun p : α × β => P p.1 ∧ Q p.2) (fun p => (f p.1).andThen (g p.2)) := by
  rintro ⟨a, a'⟩ ⟨b, b'⟩ x y r s ⟨pa, qa⟩ ⟨pb, qb⟩ ha hb h
  obtain ⟨x1, x2, h1, h2, rfl⟩ := andThen_ok.1 ha
  obtain ⟨y1, y2, h3, h4, rfl⟩ := andThen_ok.1 hb
  rw [List.append_assoc, List.append_assoc] at h
  obtain ⟨e1, e2⟩ := hf _ _ _ _ _ _ pa pb h1 h3 h
  obtain ⟨e3, e4⟩ := hg _ _ _ _ _ _ qa qb h2 h4 e2
  simp only at e1 e3
  exact ⟨by rw [e1, e3], e4⟩

/-- Sequential composition where what follows depends on what came first. -/
theorem SD.dep {α β : Type} {P : α → Prop} {Q : α → β → Prop} {f : α → Out} {g : α → β → Out} (hf : SD P f)
    (hg : ∀ a, P a → SD (Q a) (g a)) :
    SD (fun p : α × β => P p.1 ∧ Q p.1 p.2) (fun p => (f p.1).andThen (g p.1 p.2)) := by
  rintro ⟨a, a'⟩ ⟨b, b'⟩ x y r s ⟨pa, qa⟩ ⟨pb, qb⟩ ha hb h
  obtain ⟨x1, x2, h1, h2, rfl⟩ := andThen_ok.1 ha
  obtain ⟨y1, y2, h3, h4, rfl⟩ := andThen_ok.1 hb
  rw [List.append_assoc, List.append_assoc] at h
  obtain ⟨e1, e2⟩ := hf _ _ _ _ _ _ pa pb h1 h3 h
  simp only at e1 qa qb h2 h4
  subst e1
  obtain ⟨e3, e4⟩ := hg a pa _ _ _ _ _ _ qa qb h2 h4 e2
  exact ⟨by rw [e3], e4⟩

/-- Change of representation: if `k` is injective (on `P`) and `enc a = enc' (k a)`. -/
theorem SD.via {α β : Type} {P : α → Prop} {Q : β → Prop} {enc : α → Out} {enc' : β → Out} (k : α → β)
    (h : SD Q enc') (hk : ∀ a b, P a → P b → k a = k b → a = b) (hP : ∀ a, P a → Q (k a))
    (he : ∀ a, P a → enc a = enc' (k a)) : SD P enc := by
  intro a b x y r s pa pb ha hb hh
  simp only [he a pa] at ha
  simp only [he b pb] at hb
  obtain ⟨e1, e2⟩ := h _ _ _ _ _ _ (hP a pa) (hP b pb) ha hb hh
  exact ⟨hk _ _ pa pb e1, e2⟩

theorem sd_fixed (n : Nat) : SD (fun b : Bytes => b.length = n) (fun b => Out.ok b) := by
  intro a b x y r s ha hb h1 h2 h
  simp only [Out.ok_toRes, Except.ok.injEq] at h1 h2
  subst h1 h2
  exact List.append_inj h (by rw [ha, hb])

theorem siaInt_toRes {v : Int} {x : Bytes} (h : (siaInt v).toRes = .ok x) :
    0 ≤ v ∧ v < 2^64 ∧ x = toBytesLE 8 v.toNat := by
  by_cases hv : 0 ≤ v ∧ v < 2^64
  · rw [siaInt_ok hv.1 hv.2] at h
    simp at h
    exact ⟨hv.1, hv.2, h.symm⟩
  · rw [siaInt_err hv] at h; simp [Out.raise, Out.toRes] at h

theorem rivInt_toRes {n : Nat} {v : Int} {x : Bytes} (h : (rivInt n v).toRes = .ok x) :
    0 ≤ v ∧ v < 2^(8*n) ∧ x = toBytesLE n v.toNat := by
  by_cases hv : 0 ≤ v ∧ v < 2^(8*n)
  · rw [rivInt_ok hv.1 hv.2] at h
    simp at h
    exact ⟨hv.1, hv.2, h.symm⟩
  · rw [rivInt_err hv] at h; simp [Out.raise, Out.toRes] at h

theorem sd_siaInt : SD (fun _ => True) siaInt := by
  intro a b x y r s _ _ h1 h2 h
  obtain ⟨a0, a1, rfl⟩ := siaInt_toRes h1
  obtain ⟨b0, b1, rfl⟩ := siaInt_toRes h2
  obtain ⟨e1, e2⟩ := List.append_inj h (by simp)
  have := toBytesLE_inj (n := 8) (v := a.toNat) (w := b.toNat) (by omega) (by omega) e1
  exact ⟨by omega, e2⟩

theorem sd_rivInt (n : Nat) : SD (fun _ => True) (rivInt n) := by
  intro a b x y r s _ _ h1 h2 h
  obtain ⟨a0, a1, rfl⟩ := rivInt_toRes h1
  obtain ⟨b0, b1, rfl⟩ := rivInt_toRes h2
  obtain ⟨e1, e2⟩ := List.append_inj h (by simp)
  have p : ((2:Int)^(8*n)) = ((256^n : Nat) : Int) := by rw [Int.pow_mul]; simp
  rw [p] at a1 b1
  have := toBytesLE_inj (n := n) (v := a.toNat) (w := b.toNat) (by omega) (by omega) e1
  exact ⟨by omega, e2⟩

theorem rivSliceLen_toRes {n : Nat} {x : Bytes} (h : (rivSliceLen n).toRes = .ok x) : n < 2^29 ∧ x = rivLenBytes n := by
  by_cases hn : n < 2^29
  · rw [rivSliceLen_ok hn] at h; simp at h; exact ⟨hn, h.symm⟩
  · rw [rivSliceLen_err (by omega)] at h; simp [Out.raise, Out.toRes] at h

theorem sd_rivSliceLen : SD (fun _ => True) rivSliceLen := by
  intro a b x y r s _ _ h1 h2 h
  obtain ⟨a1, rfl⟩ := rivSliceLen_toRes h1
  obtain ⟨b1, rfl⟩ := rivSliceLen_toRes h2
  have d := rivLenDecode_rivLenBytes a1 r
  rw [h, rivLenDecode_rivLenBytes b1 s] at d
  simp only [Option.some.injEq, Prod.mk.injEq] at d
  exact ⟨d.1.symm, d.2.symm⟩

theorem sd_siaLen : SD (fun _ => True) (fun n : Nat => siaInt n) := by
  intro a b x y r s _ _ h1 h2 h
  obtain ⟨e, e'⟩ := sd_siaInt _ _ _ _ _ _ trivial trivial h1 h2 h
  exact ⟨by omega, e'⟩

theorem sd_siaSliceBytes : SD (fun _ => True) siaSliceBytes := by
  have h := SD.dep (P := fun _ => True) (Q := fun (n : Nat) (b : Bytes) => b.length = n) sd_siaLen
    (g := fun _ b => Out.ok b) (fun n _ => sd_fixed n)
  refine SD.via (fun b : Bytes => (b.length, b)) h ?_ (fun _ _ => ⟨trivial, rfl⟩) (fun _ _ => rfl)
  intro a b _ _ e; exact (Prod.mk.inj e).2

theorem sd_rivSliceBytes : SD (fun _ => True) rivSliceBytes := by
  have h := SD.dep (P := fun _ => True) (Q := fun (n : Nat) (b : Bytes) => b.length = n) sd_rivSliceLen
    (g := fun _ b => Out.ok b) (fun n _ => sd_fixed n)
  refine SD.via (fun b : Bytes => (b.length, b)) h ?_ (fun _ _ => ⟨trivial, rfl⟩) (fun _ _ => rfl)
  intro a b _ _ e; exact (Prod.mk.inj e).2

/-- Nested encodings: a delimited slice of an injective inner encoding is self-delimiting. -/
theorem SD.nested {α : Type} {P : α → Prop} {inner : α → Out} {f : Bytes → Out} (hf : SD (fun _ => True) f)
    (hi : ∀ a b x, P a → P b → (inner a).toRes = .ok x → (inner b).toRes = .ok x → a = b) :
    SD P (fun a => (inner a).nested f) := by
  intro a b x y r s pa pb ha hb h
  obtain ⟨u, hu, hu'⟩ := nested_ok.1 ha
  obtain ⟨v, hv, hv'⟩ := nested_ok.1 hb
  obtain ⟨rfl, e⟩ := hf _ _ _ _ _ _ trivial trivial hu' hv' h
  exact ⟨hi a b u pa pb hu hv, e⟩

/-- Lists of known length, element by element, with a list encoder `seq` satisfying the recursion of `add_all`. -/
theorem sd_seq {α : Type} {P : α → Prop} {enc : α → Out} {seq : List α → Out}
    (h0 : seq [] = .ok []) (h1 : ∀ a l, seq (a :: l) = (enc a).andThen (seq l)) (h : SD P enc) (n : Nat) :
    SD (fun l : List α => l.length = n ∧ ∀ a ∈ l, P a) seq := by
  induction n with
  | zero =>
    rintro a b x y r s ⟨la, -⟩ ⟨lb, -⟩ ha hb hh
    have := List.length_eq_zero_iff.1 la; have := List.length_eq_zero_iff.1 lb
    subst a b
    simp only [h0, Out.ok_toRes, Except.ok.injEq] at ha hb
    subst ha hb
    exact ⟨rfl, by simpa using hh⟩
  | succ n ih =>
    rintro (_ | ⟨a, l⟩) (_ | ⟨b, l'⟩) x y r s ⟨la, pa⟩ ⟨lb, pb⟩ ha hb hh
    · simp at la
    · simp at la
    · simp at lb
    · simp only [h1] at ha hb
      obtain ⟨x1, x2, h1', h2', rfl⟩ := andThen_ok.1 ha
      obtain ⟨y1, y2, h3', h4', rfl⟩ := andThen_ok.1 hb
      rw [List.append_assoc, List.append_assoc] at hh
      obtain ⟨rfl, e2⟩ := h _ _ _ _ _ _ (pa _ (by simp)) (pb _ (by simp)) h1' h3' hh
      obtain ⟨rfl, e4⟩ := ih _ _ _ _ _ _ ⟨by simpa using la, fun a ha => pa a (by simp [ha])⟩
        ⟨by simpa using lb, fun a ha => pb a (by simp [ha])⟩ h2' h4' e2
      exact ⟨rfl, e4⟩

/-- Counted lists (sia). -/
theorem sd_siaList {α : Type} {P : α → Prop} (f : α → Val) (h : SD P (fun a => siaAdd (f a))) :
    SD (fun l : List α => ∀ a ∈ l, P a) (fun l => siaAddSlice (.seq (l.map f))) := by
  have hs := sd_seq (P := P) (enc := fun a => siaAdd (f a)) (seq := fun l => siaAddSeq (l.map f)) rfl (fun a l => rfl) h
  have hd := SD.dep (P := fun _ => True) sd_siaLen (fun n _ => hs n)
  refine SD.via (fun l : List α => (l.length, l)) hd ?_ (fun l hl => ⟨trivial, rfl, hl⟩) (fun l _ => ?_)
  · intro a b _ _ e; exact (Prod.mk.inj e).2
  · simp [siaAddSlice]

/-- Counted lists (rivine). -/
theorem sd_rivList {α : Type} {P : α → Prop} (f : α → Val) (h : SD P (fun a => rivAdd (f a))) :
    SD (fun l : List α => ∀ a ∈ l, P a) (fun l => rivAddSlice (.seq (l.map f))) := by
  have hs := sd_seq (P := P) (enc := fun a => rivAdd (f a)) (seq := fun l => rivAddSeq (l.map f)) rfl (fun a l => rfl) h
  have hd := SD.dep (P := fun _ => True) sd_rivSliceLen (fun n _ => hs n)
  refine SD.via (fun l : List α => (l.length, l)) hd ?_ (fun l hl => ⟨trivial, rfl, hl⟩) (fun l _ => ?_)
  · intro a b _ _ e; exact (Prod.mk.inj e).2
  · simp [rivAddSlice]

end TF
