import Verif.Lemmas.Encoders
/-!
# Properties C01–C06: the binary encoders (encoders/sia.py, encoders/rivine.py)
-/
namespace TF.Props
open TF Spec

/-- **C01**. In any encoder state, `add_int v` accepts exactly `0 ≤ v < 2^64`, appending eight bytes denoting `v`
little-endian; anything else raises `IntegerOutOfRange` and leaves the data untouched. -/
theorem C01_sia_int (data : Bytes) (v : Int) :
    (0 ≤ v ∧ v < 2^64 →
      ∃ bs, siaStep data (.addInt v) = (data ++ bs, none) ∧ bs.length = 8 ∧ (leValue bs : Int) = v) ∧
    (¬ (0 ≤ v ∧ v < 2^64) → siaStep data (.addInt v) = (data, some .integerOutOfRange)) := by
  constructor
  · rintro ⟨h0, h1⟩
    refine ⟨toBytesLE 8 v.toNat, ?_, by simp, ?_⟩
    · simp [siaStep, siaInt_ok h0 h1, Out.ok]
    · rw [leValue_toBytesLE, Nat.mod_eq_of_lt (by omega)]; omega
  · intro h; simp [siaStep, siaInt_err h, Out.raise]

example : siaStep [9] (.addInt 258) = ([9, 2, 1, 0, 0, 0, 0, 0, 0], none) := by decide
example : siaStep [9] (.addInt (2^64)) = ([9], some .integerOutOfRange) := by decide
example : siaStep [9] (.addInt (-1)) = ([9], some .integerOutOfRange) := by decide

/-- The five rivine integer methods by width. -/
def rivAddIntN : Nat → Int → Out
  | 1 => rivInt8 | 2 => rivInt16 | 3 => rivInt24 | 4 => rivInt32 | _ => rivInt64

/-- **C02**. Each `add_int8/16/24/32/64` accepts exactly `0 ≤ v < 2^(8n)`, appending `n` bytes denoting `v`
little-endian; anything else raises `IntegerOutOfRange` and appends nothing. -/
theorem C02_rivine_int (n : Nat) (hn : n ∈ [1, 2, 3, 4, 8]) (v : Int) :
    (0 ≤ v ∧ v < 2^(8*n) →
      ∃ bs, rivAddIntN n v = ⟨bs, none⟩ ∧ bs.length = n ∧ (leValue bs : Int) = v) ∧
    (¬ (0 ≤ v ∧ v < 2^(8*n)) → rivAddIntN n v = ⟨[], some .integerOutOfRange⟩) := by
  have e : rivAddIntN n v = rivInt n v := by
    simp only [List.mem_cons, List.not_mem_nil, or_false] at hn
    rcases hn with rfl | rfl | rfl | rfl | rfl <;> rfl
  rw [e]
  constructor
  · rintro ⟨h0, h1⟩
    refine ⟨toBytesLE n v.toNat, rivInt_ok h0 h1, by simp, ?_⟩
    have h2 : v.toNat < 256 ^ n := by
      have : (256:Nat)^n = 2^(8*n) := by rw [Nat.pow_mul]
      rw [this]
      have : ((2^(8*n) : Nat) : Int) = 2^(8*n) := by push_cast; rfl
      omega
    rw [leValue_toBytesLE, Nat.mod_eq_of_lt h2]; omega
  · intro h; exact rivInt_err h

example : rivAddIntN 3 66051 = ⟨[3, 2, 1], none⟩ := by decide
example : rivAddIntN 3 (2^24) = ⟨[], some .integerOutOfRange⟩ := by decide

/-- **C03**. Every length below `2^29` gets a prefix of 1–4 bytes (by magnitude) from which the published rule recovers the
length and the rest of the stream; every other length is refused. -/
theorem C03_rivine_slice_length (n : Nat) :
    (n < 2^29 → ∃ p, rivSliceLen n = ⟨p, none⟩ ∧
      p.length = (if n < 2^7 then 1 else if n < 2^14 then 2 else if n < 2^21 then 3 else 4) ∧
      ∀ rest, rivLenDecode (p ++ rest) = some (n, rest)) ∧
    (2^29 ≤ n → rivSliceLen n = ⟨[], some .sliceLengthOutOfRange⟩) :=
  ⟨fun h => ⟨rivLenBytes n, rivSliceLen_ok h, rivLenBytes_length n, rivLenDecode_rivLenBytes h⟩,
   fun h => rivSliceLen_err h⟩

example : rivSliceLen 127 = ⟨[254], none⟩ ∧ rivSliceLen 128 = ⟨[1, 2], none⟩ ∧
    rivSliceLen 16384 = ⟨[3, 0, 2], none⟩ ∧ rivSliceLen (2^21) = ⟨[7, 0, 0, 1], none⟩ := by decide

/-- **C04** (decoding). A byte string added as a slice is split off any stream by the published decoder; a byte string too
long for the length prefix is refused. -/
theorem C04_slice_decode (b : Bytes) :
    (b.length < 2^64 → ∃ x, siaAddSlice (.bytes b) = ⟨x, none⟩ ∧ ∀ rest, siaSliceDecode (x ++ rest) = some (b, rest)) ∧
    (2^64 ≤ b.length → siaAddSlice (.bytes b) = ⟨[], some .integerOutOfRange⟩) ∧
    (b.length < 2^29 → ∃ x, rivAddSlice (.bytes b) = ⟨x, none⟩ ∧ ∀ rest, rivSliceDecode (x ++ rest) = some (b, rest)) ∧
    (2^29 ≤ b.length → rivAddSlice (.bytes b) = ⟨[], some .sliceLengthOutOfRange⟩) := by
  refine ⟨fun h => ⟨_, siaSliceBytes_ok h, fun rest => ?_⟩, fun h => siaSliceBytes_err h,
    fun h => ⟨_, rivSliceBytes_ok h, fun rest => ?_⟩, fun h => rivSliceBytes_err h⟩
  · rw [List.append_assoc, siaSliceDecode_eq h, splitBytes_append]
  · rw [List.append_assoc, rivSliceDecode_eq h, splitBytes_append]

/-- **C04** (unambiguity). Encoded slices are self-delimiting in both formats. -/
theorem C04_slice_self_delimiting :
    SelfDelimiting (fun _ => True) (fun b : Bytes => (siaAddSlice (.bytes b)).toRes) ∧
    SelfDelimiting (fun _ => True) (fun b : Bytes => (rivAddSlice (.bytes b)).toRes) := by
  constructor
  · intro a b x y r s _ _ ha hb h
    obtain ⟨a1, a2, -, -⟩ := C04_slice_decode a
    obtain ⟨b1, b2, -, -⟩ := C04_slice_decode b
    by_cases la : a.length < 2^64
    · by_cases lb : b.length < 2^64
      · obtain ⟨x', hx, dx⟩ := a1 la
        obtain ⟨y', hy, dy⟩ := b1 lb
        simp only [hx, hy, Out.toRes, Except.ok.injEq] at ha hb
        subst ha hb
        have := dx r; rw [h, dy s] at this
        simp only [Option.some.injEq, Prod.mk.injEq] at this
        exact ⟨this.1.symm, this.2.symm⟩
      · simp [b2 (by omega), Out.toRes] at hb
    · simp [a2 (by omega), Out.toRes] at ha
  · intro a b x y r s _ _ ha hb h
    obtain ⟨-, -, a1, a2⟩ := C04_slice_decode a
    obtain ⟨-, -, b1, b2⟩ := C04_slice_decode b
    by_cases la : a.length < 2^29
    · by_cases lb : b.length < 2^29
      · obtain ⟨x', hx, dx⟩ := a1 la
        obtain ⟨y', hy, dy⟩ := b1 lb
        simp only [hx, hy, Out.toRes, Except.ok.injEq] at ha hb
        subst ha hb
        have := dx r; rw [h, dy s] at this
        simp only [Option.some.injEq, Prod.mk.injEq] at this
        exact ⟨this.1.symm, this.2.symm⟩
      · simp [b2 (by omega), Out.toRes] at hb
    · simp [a2 (by omega), Out.toRes] at ha

example : rivSliceDecode ((rivSliceBytes [7, 8]).bytes ++ [1]) = some ([7, 8], [1]) := by decide
example : siaSliceDecode ((siaSliceBytes [7, 8]).bytes ++ [1]) = some ([7, 8], [1]) := by decide

/-- **C05** (what holds). A text added as a slice is split off any stream by the published decoder exactly when it is
ASCII: the length prefix counts characters, not bytes. -/
theorem C05_text_slice_partial (s : Str) :
    (s.length < 2^64 → ∃ x, siaAddSlice (.str s) = ⟨x, none⟩ ∧
      ((∀ rest, siaSliceDecode (x ++ rest) = some (utf8 s, rest)) ↔ IsAscii s)) ∧
    (s.length < 2^29 → ∃ x, rivAddSlice (.str s) = ⟨x, none⟩ ∧
      ((∀ rest, rivSliceDecode (x ++ rest) = some (utf8 s, rest)) ↔ IsAscii s)) := by
  have key : (∀ rest, splitBytes s.length (utf8 s ++ rest) = some (utf8 s, rest)) ↔ IsAscii s := by
    rw [← utf8_length_eq_iff]
    constructor
    · intro h
      have := h []
      have hl := utf8_length_ge s
      simp only [splitBytes, List.append_nil, if_pos hl, Option.some.injEq, Prod.mk.injEq] at this
      have := congrArg List.length this.1
      simp only [List.length_take] at this
      omega
    · intro h rest
      exact splitBytes_append' _ _ h.symm
  refine ⟨fun h => ⟨_, siaSliceStr_ok h, ?_⟩, fun h => ⟨_, rivSliceStr_ok h, ?_⟩⟩
  · rw [← key]
    constructor <;> intro h' rest <;> have := h' rest
    · rwa [List.append_assoc, siaSliceDecode_eq h] at this
    · rwa [List.append_assoc, siaSliceDecode_eq h]
  · rw [← key]
    constructor <;> intro h' rest <;> have := h' rest
    · rwa [List.append_assoc, rivSliceDecode_eq h] at this
    · rwa [List.append_assoc, rivSliceDecode_eq h]

/-- **C05** (finding). The full claim is false of the code: "é" is written with length 1 but two bytes. -/
theorem C05_text_slice_false :
    ¬ (∀ (s : Str) (rest x : Bytes), siaAddSlice (.str s) = ⟨x, none⟩ → siaSliceDecode (x ++ rest) = some (utf8 s, rest)) ∧
    ¬ (∀ (s : Str) (rest x : Bytes), rivAddSlice (.str s) = ⟨x, none⟩ → rivSliceDecode (x ++ rest) = some (utf8 s, rest)) := by
  constructor
  · intro h; exact absurd (h ['é'] [] _ rfl) (by decide)
  · intro h; exact absurd (h ['é'] [] _ rfl) (by decide)

example : IsAscii "tfchain".toList := by unfold IsAscii; decide

/-- **C05** (what still holds for all of Unicode). Although the prefix is not the one the format prescribes, two texts (each
followed by anything) never collide: text slices are self-delimiting. -/
theorem C05_text_slice_unambiguous_partial :
    SelfDelimiting (fun _ => True) (fun s : Str => (siaAddSlice (.str s)).toRes) ∧
    SelfDelimiting (fun _ => True) (fun s : Str => (rivAddSlice (.str s)).toRes) := by
  constructor
  · intro a b x y r s _ _ ha hb h
    have err : ∀ a : Str, ¬ a.length < 2^64 → siaAddSlice (.str a) = ⟨[], some .integerOutOfRange⟩ := by
      intro a h; simp only [siaAddSlice, siaSliceStr]; rw [siaInt_err (by omega)]; rfl
    by_cases la : a.length < 2^64
    · by_cases lb : b.length < 2^64
      · simp only [siaAddSlice, siaSliceStr_ok la, siaSliceStr_ok lb, Out.toRes, Out.ok, Except.ok.injEq] at ha hb
        subst ha hb
        simp only [List.append_assoc] at h
        have h1 := List.append_inj h (by simp)
        have h2 := toBytesLE_inj (by omega) (by omega) h1.1
        exact utf8_prefix h2 h1.2
      · simp [err b lb, Out.toRes] at hb
    · simp [err a la, Out.toRes] at ha
  · intro a b x y r s _ _ ha hb h
    have err : ∀ a : Str, ¬ a.length < 2^29 → rivAddSlice (.str a) = ⟨[], some .sliceLengthOutOfRange⟩ := by
      intro a h; simp only [rivAddSlice, rivSliceStr]; rw [rivSliceLen_err (by omega)]; rfl
    by_cases la : a.length < 2^29
    · by_cases lb : b.length < 2^29
      · simp only [rivAddSlice, rivSliceStr_ok la, rivSliceStr_ok lb, Out.toRes, Out.ok, Except.ok.injEq] at ha hb
        subst ha hb
        simp only [List.append_assoc] at h
        have d1 := rivLenDecode_rivLenBytes la (utf8 a ++ r)
        rw [h, rivLenDecode_rivLenBytes lb] at d1
        simp only [Option.some.injEq, Prod.mk.injEq] at d1
        exact utf8_prefix d1.1.symm d1.2.symm
      · simp [err b lb, Out.toRes] at hb
    · simp [err a la, Out.toRes] at ha

/-- The state after a history of calls, with all exceptions caught by the caller. -/
def runCalls (step : Bytes → EncCall → Bytes × Option Err) (data : Bytes) (cs : List EncCall) : Bytes :=
  cs.foldl (fun d c => (step d c).1) data

/-- Not the `reset` call. -/
def EncCall.IsAdd : EncCall → Prop
  | .reset => False
  | _ => True

/-- **C06** (append-only). Over any history of add calls, failing or not, the data present before is a prefix of the data
present after. -/
theorem C06_append_only (cs : List EncCall) (hc : ∀ c ∈ cs, EncCall.IsAdd c) (data : Bytes) :
    data <+: runCalls siaStep data cs ∧ data <+: runCalls rivStep data cs := by
  have gen : ∀ (step : Bytes → EncCall → Bytes × Option Err), (∀ d c, EncCall.IsAdd c → d <+: (step d c).1) →
      ∀ (cs : List EncCall), (∀ c ∈ cs, EncCall.IsAdd c) → ∀ data, data <+: runCalls step data cs := by
    intro step hs cs
    induction cs with
    | nil => intro _ d; exact List.prefix_rfl
    | cons c cs ih =>
      intro h d
      exact (hs d c (h c (by simp))).trans (ih (fun c hc => h c (by simp [hc])) (step d c).1)
  refine ⟨gen siaStep ?_ cs hc data, gen rivStep ?_ cs hc data⟩
  · intro d c h; cases c <;> simp_all [siaStep, EncCall.IsAdd]
  · intro d c h; cases c <;> simp_all [rivStep, EncCall.IsAdd]

/-- **C06** (compositional, success). If every value is accepted, `add_all` appends the concatenation of the separate
encodings. -/
theorem C06_add_all_concat (data : Bytes) (vs : List Val) :
    ((∀ v ∈ vs, (siaStep [] (.add v)).2 = none) →
      siaStep data (.addAll vs) = (data ++ vs.flatMap (fun v => (siaStep [] (.add v)).1), none)) ∧
    ((∀ v ∈ vs, (rivStep [] (.add v)).2 = none) →
      rivStep data (.addAll vs) = (data ++ vs.flatMap (fun v => (rivStep [] (.add v)).1), none)) := by
  constructor
  · intro h; simp only [siaStep, List.nil_append] at h ⊢; rw [siaAddSeq_ok vs h]
  · intro h; simp only [rivStep, List.nil_append] at h ⊢; rw [rivAddSeq_ok vs h]

/-- **C06** (compositional, failure). `add_all` stops at the first refused value, raising its exception, and leaves behind
the encodings of the values before it (and whatever the refused value itself had already appended). -/
theorem C06_add_all_first_error (data : Bytes) (pre : List Val) (v : Val) (post : List Val) (e : Err) :
    ((∀ v ∈ pre, (siaStep [] (.add v)).2 = none) → (siaStep [] (.add v)).2 = some e →
      siaStep data (.addAll (pre ++ v :: post)) =
        (data ++ pre.flatMap (fun v => (siaStep [] (.add v)).1) ++ (siaStep [] (.add v)).1, some e)) ∧
    ((∀ v ∈ pre, (rivStep [] (.add v)).2 = none) → (rivStep [] (.add v)).2 = some e →
      rivStep data (.addAll (pre ++ v :: post)) =
        (data ++ pre.flatMap (fun v => (rivStep [] (.add v)).1) ++ (rivStep [] (.add v)).1, some e)) := by
  constructor
  · intro h he; simp only [siaStep, List.nil_append] at h he ⊢; rw [siaAddSeq_fail pre v post e h he]; simp
  · intro h he; simp only [rivStep, List.nil_append] at h he ⊢; rw [rivAddSeq_fail pre v post e h he]; simp

/-- **C06** (nesting). A list added as one value is its length prefix followed by the concatenated encodings of its elements. -/
theorem C06_list_is_prefix_and_elements (vs : List Val) :
    ((∀ v ∈ vs, (siaAdd v).err = none) → vs.length < 2^64 →
      ∃ p, siaInt vs.length = ⟨p, none⟩ ∧ siaAdd (.seq vs) = ⟨p ++ vs.flatMap (fun v => (siaAdd v).bytes), none⟩) ∧
    ((∀ v ∈ vs, (rivAdd v).err = none) → vs.length < 2^29 →
      ∃ p, rivSliceLen vs.length = ⟨p, none⟩ ∧ rivAdd (.seq vs) = ⟨p ++ vs.flatMap (fun v => (rivAdd v).bytes), none⟩) := by
  constructor
  · intro h hl
    refine ⟨_, siaInt_ok (by omega) (by omega), ?_⟩
    rw [siaAdd, siaAddSeq_ok vs h, siaInt_ok (by omega) (by omega)]
    simp [Out.andThen, Out.ok, Out.typeErrorAsValueError]
  · intro h hl
    refine ⟨_, rivSliceLen_ok hl, ?_⟩
    rw [rivAdd, rivAddSeq_ok vs h, rivSliceLen_ok hl]
    simp [Out.andThen, Out.ok, Out.typeErrorAsValueError]

/-- **C06** (arrays). `add_array` puts no length in front: bytes are appended as they are, a text as its UTF-8 bytes, and a list exactly
like adding its values one by one; anything else raises `TypeError` and leaves the data as it was. -/
theorem C06_array (data : Bytes) :
    (∀ b, siaStep data (.addArray (.bytes b)) = (data ++ b, none) ∧ rivStep data (.addArray (.bytes b)) = (data ++ b, none)) ∧
    (∀ s, siaStep data (.addArray (.str s)) = (data ++ utf8 s, none) ∧ rivStep data (.addArray (.str s)) = (data ++ utf8 s, none)) ∧
    (∀ vs, siaStep data (.addArray (.seq vs)) = siaStep data (.addAll vs) ∧ rivStep data (.addArray (.seq vs)) = rivStep data (.addAll vs)) ∧
    (∀ i, siaStep data (.addArray (.int i)) = (data, some .typeError) ∧ rivStep data (.addArray (.int i)) = (data, some .typeError)) ∧
    (∀ b, siaStep data (.addArray (.bool b)) = (data, some .typeError) ∧ rivStep data (.addArray (.bool b)) = (data, some .typeError)) ∧
    (siaStep data (.addArray .none) = (data, some .typeError) ∧ rivStep data (.addArray .none) = (data, some .typeError)) := by
  simp [siaStep, rivStep, siaAddArray, rivAddArray, Out.ok, Out.raise]

/-- **C06** (slices). `add_slice` of a list is its number of elements followed by the elements as `add_all` adds them; a list too long for
its length prefix is refused with the data as it was. -/
theorem C06_slice (data : Bytes) (vs : List Val) :
    (vs.length < 2^64 → ∃ d, siaStep data (.addInt vs.length) = (d, none) ∧ siaStep data (.addSlice (.seq vs)) = siaStep d (.addAll vs)) ∧
    (2^64 ≤ vs.length → siaStep data (.addSlice (.seq vs)) = (data, some .integerOutOfRange)) ∧
    (vs.length < 2^29 → ∃ p, (∀ rest, rivLenDecode (p ++ rest) = some (vs.length, rest)) ∧
      rivStep data (.addSlice (.seq vs)) = rivStep (data ++ p) (.addAll vs)) ∧
    (2^29 ≤ vs.length → rivStep data (.addSlice (.seq vs)) = (data, some .sliceLengthOutOfRange)) := by
  refine ⟨fun h => ⟨data ++ toBytesLE 8 vs.length, ?_, ?_⟩, fun h => ?_, fun h => ⟨rivLenBytes vs.length, rivLenDecode_rivLenBytes h, ?_⟩, fun h => ?_⟩
  · have e := siaInt_ok (v := (vs.length : Int)) (by omega) (by omega)
    simp [siaStep, e, Out.ok]
  · have e := siaInt_ok (v := (vs.length : Int)) (by omega) (by omega)
    simp [siaStep, siaAddSlice, e, Out.andThen, Out.ok]
  · have e := siaInt_err (v := (vs.length : Int)) (by omega)
    simp [siaStep, siaAddSlice, e, Out.andThen, Out.raise]
  · have e := rivSliceLen_ok h
    simp [rivStep, rivAddSlice, e, Out.andThen, Out.ok]
  · have e := rivSliceLen_err h
    simp [rivStep, rivAddSlice, e, Out.andThen, Out.raise]

/-- **C06** (single bytes). `add_byte` appends exactly one byte: a whole number from 0 to 255 as that byte, a text or bytes of one byte as
that byte. Everything else is refused and leaves the data as it was. -/
theorem C06_byte (data : Bytes) (step : Bytes → EncCall → Bytes × Option Err) (hs : step = siaStep ∨ step = rivStep) :
    (∀ i : Int, 0 ≤ i → i < 256 → ∃ b : UInt8, (b.toNat : Int) = i ∧ step data (.addByte (.int i)) = (data ++ [b], none)) ∧
    (∀ i : Int, i < 0 ∨ 256 ≤ i → ∃ e, step data (.addByte (.int i)) = (data, some e)) ∧
    (∀ b : UInt8, step data (.addByte (.bytes [b])) = (data ++ [b], none)) ∧
    (∀ b : Bytes, b.length ≠ 1 → step data (.addByte (.bytes b)) = (data, some .valueError)) ∧
    (∀ s : Str, step data (.addByte (.str s)) = step data (.addByte (.bytes (utf8 s)))) ∧
    (∀ vs, step data (.addByte (.seq vs)) = (data, some .valueError)) := by
  have one : ∀ {i : Int}, 0 ≤ i → i < 256 → toBytesLE 1 i.toNat = [UInt8.ofNat i.toNat] ∧ ((UInt8.ofNat i.toNat).toNat : Int) = i := by
    intro i h0 h1
    refine ⟨?_, ?_⟩
    · simp [toBytesLE, Nat.mod_eq_of_lt (show i.toNat < 256 by omega)]
    · rw [UInt8.toNat_ofNat', Nat.mod_eq_of_lt (by omega)]; omega
  rcases hs with rfl | rfl
  · refine ⟨fun i h0 h1 => ⟨_, (one h0 h1).2, ?_⟩, fun i h => ⟨.valueError, ?_⟩, fun b => ?_, fun b h => ?_, fun s => ?_, fun vs => ?_⟩
    · simp only [siaStep, siaAddByte, if_neg (show ¬ (i < 0 ∨ i > 255) by omega), Out.ok, (one h0 h1).1]
    · simp [siaStep, siaAddByte, show i < 0 ∨ i > 255 by omega, Out.raise]
    · simp [siaStep, siaAddByte, Out.ok]
    · simp [siaStep, siaAddByte, h, Out.raise]
    · simp [siaStep, siaAddByte]
    · simp [siaStep, siaAddByte, Out.raise]
  · refine ⟨fun i h0 h1 => ⟨_, (one h0 h1).2, ?_⟩, fun i h => ⟨.integerOutOfRange, ?_⟩, fun b => ?_, fun b h => ?_, fun s => ?_, fun vs => ?_⟩
    · simp only [rivStep, rivAddByte, rivInt8, rivInt_ok (n := 1) h0 (by omega), Out.ok, (one h0 h1).1]
    · simp [rivStep, rivAddByte, rivInt8, rivInt_err (n := 1) (v := i) (by omega), Out.raise]
    · simp [rivStep, rivAddByte, Out.ok]
    · simp [rivStep, rivAddByte, h, Out.raise]
    · simp [rivStep, rivAddByte]
    · simp [rivStep, rivAddByte, Out.raise]

example : rivStep [5] (.addByte (.int 255)) = ([5, 255], none) ∧ siaStep [5] (.addByte (.int 256)) = ([5], some .valueError) ∧
    siaStep [5] (.addSlice (.seq [.bool true])) = ([5, 1, 0, 0, 0, 0, 0, 0, 0, 1], none) := by decide

example : siaStep [5] (.addAll [.bool true, .bytes [8], .int (-1), .bool false]) =
    ([5, 1, 1, 0, 0, 0, 0, 0, 0, 0, 8], some .integerOutOfRange) := by decide
example : (rivAdd (.seq [.bool true, .bytes [8]])) = ⟨[4, 1, 2, 8], none⟩ := by decide
example : ∀ c ∈ [EncCall.add (.int 3), .addSlice (.str ['a'])], EncCall.IsAdd c := by simp [EncCall.IsAdd]

end TF.Props
