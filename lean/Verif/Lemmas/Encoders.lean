import Verif.Model.Encoders
import Verif.Lemmas.Bytes
/-! Lemmas on the encoder model. -/
namespace TF
open Spec

theorem siaInt_ok {v : Int} (h0 : 0 ≤ v) (h : v < 2^64) : siaInt v = .ok (toBytesLE 8 v.toNat) := by
  unfold siaInt; rw [if_neg (by omega), if_neg (by omega)]

theorem siaInt_err {v : Int} (h : ¬ (0 ≤ v ∧ v < 2^64)) : siaInt v = .raise .integerOutOfRange := by
  unfold siaInt
  split
  · rfl
  · rw [if_pos (by omega)]

theorem rivInt_ok {n : Nat} {v : Int} (h0 : 0 ≤ v) (h : v < 2^(8*n)) : rivInt n v = .ok (toBytesLE n v.toNat) := by
  unfold rivInt; rw [if_neg (by omega), if_neg (by omega)]

theorem rivInt_err {n : Nat} {v : Int} (h : ¬ (0 ≤ v ∧ v < 2^(8*n))) : rivInt n v = .raise .integerOutOfRange := by
  unfold rivInt
  split
  · rfl
  · rw [if_pos (by omega)]

theorem or_shl (a n k : Nat) (ha : a < 2^k) : a ||| (n <<< k) = a + n * 2^k := by
  rw [Nat.or_comm, ← Nat.shiftLeft_add_eq_or_of_lt ha, Nat.shiftLeft_eq]; omega

/-- The bytes of the slice-length prefix. -/
def rivLenBytes (n : Nat) : Bytes :=
  if n < 2^7 then toBytesLE 1 (n*2)
  else if n < 2^14 then toBytesLE 2 (1 + n*4)
  else if n < 2^21 then toBytesLE 3 (3 + n*8)
  else toBytesLE 4 (7 + n*8)

theorem rivSliceLen_ok {n : Nat} (h : n < 2^29) : rivSliceLen n = .ok (rivLenBytes n) := by
  have e1 : (n <<< 1) = n * 2 := by rw [Nat.shiftLeft_eq]
  have e2 : (1 ||| n <<< 2) = 1 + n * 4 := or_shl 1 n 2 (by decide)
  have e3 : (3 ||| n <<< 3) = 3 + n * 8 := or_shl 3 n 3 (by decide)
  have e4 : (7 ||| n <<< 3) = 7 + n * 8 := or_shl 7 n 3 (by decide)
  unfold rivSliceLen rivLenBytes rivInt8 rivInt16 rivInt24 rivInt32
  rw [e1, e2, e3, e4]
  split
  · rw [rivInt_ok (by omega) (by omega)]; simp only [Int.toNat_natCast]
  · split
    · rw [rivInt_ok (by omega) (by omega)]; simp only [Int.toNat_natCast]
    · split
      · rw [rivInt_ok (by omega) (by omega)]; simp only [Int.toNat_natCast]
      · rw [rivInt_ok (by omega) (by omega)]; simp only [Int.toNat_natCast]

theorem rivSliceLen_err {n : Nat} (h : 2^29 ≤ n) : rivSliceLen n = .raise .sliceLengthOutOfRange := by
  unfold rivSliceLen
  rw [if_neg (by omega), if_neg (by omega), if_neg (by omega), if_neg (by omega)]

theorem rivLenDecode_rivLenBytes {n : Nat} (h : n < 2^29) (s : Bytes) :
    rivLenDecode (rivLenBytes n ++ s) = some (n, s) := by
  unfold rivLenBytes
  have key : ∀ k v, v < 256^k → leValue (toBytesLE k v) = v := fun k v hv => by
    rw [leValue_toBytesLE, Nat.mod_eq_of_lt hv]
  have hd : ∀ k v, ∃ t, toBytesLE (k+1) v = UInt8.ofNat (v % 256) :: t := fun k v => ⟨_, rfl⟩
  split
  · simp only [toBytesLE, List.cons_append, List.nil_append, rivLenDecode]
    have : (UInt8.ofNat (n * 2 % 256)).toNat = n * 2 := by simp; omega
    rw [this, if_pos (by omega)]; simp
  · split
    · have k := key 2 (1 + n*4) (by omega)
      have sp := splitBytes_append' (n := 2) (toBytesLE 2 (1+n*4)) s (by simp)
      obtain ⟨t, ht⟩ := hd 1 (1 + n*4)
      rw [ht] at k sp ⊢
      simp only [List.cons_append] at sp ⊢
      have : (UInt8.ofNat ((1 + n*4) % 256)).toNat = (1 + n*4) % 256 := by simp
      simp only [rivLenDecode, this]
      rw [if_neg (by omega), if_pos (by omega), sp]
      simp [k]; omega
    · split
      · have k := key 3 (3 + n*8) (by omega)
        have sp := splitBytes_append' (n := 3) (toBytesLE 3 (3+n*8)) s (by simp)
        obtain ⟨t, ht⟩ := hd 2 (3 + n*8)
        rw [ht] at k sp ⊢
        simp only [List.cons_append] at sp ⊢
        have : (UInt8.ofNat ((3 + n*8) % 256)).toNat = (3 + n*8) % 256 := by simp
        simp only [rivLenDecode, this]
        rw [if_neg (by omega), if_neg (by omega), if_pos (by omega), sp]
        simp [k]; omega
      · have k := key 4 (7 + n*8) (by omega)
        have sp := splitBytes_append' (n := 4) (toBytesLE 4 (7+n*8)) s (by simp)
        obtain ⟨t, ht⟩ := hd 3 (7 + n*8)
        rw [ht] at k sp ⊢
        simp only [List.cons_append] at sp ⊢
        have : (UInt8.ofNat ((7 + n*8) % 256)).toNat = (7 + n*8) % 256 := by simp
        simp only [rivLenDecode, this]
        rw [if_neg (by omega), if_neg (by omega), if_neg (by omega), sp]
        simp [k]; omega

theorem rivLenBytes_length (n : Nat) : (rivLenBytes n).length =
    if n < 2^7 then 1 else if n < 2^14 then 2 else if n < 2^21 then 3 else 4 := by
  unfold rivLenBytes; split
  · simp
  · split
    · simp
    · split <;> simp

theorem siaSliceBytes_ok {b : Bytes} (h : b.length < 2^64) :
    siaSliceBytes b = .ok (toBytesLE 8 b.length ++ b) := by
  unfold siaSliceBytes; rw [siaInt_ok (by omega) (by omega)]; simp [Out.andThen, Out.ok]

theorem siaSliceBytes_err {b : Bytes} (h : 2^64 ≤ b.length) : siaSliceBytes b = .raise .integerOutOfRange := by
  unfold siaSliceBytes; rw [siaInt_err (by omega)]; simp [Out.andThen, Out.raise]

theorem rivSliceBytes_ok {b : Bytes} (h : b.length < 2^29) :
    rivSliceBytes b = .ok (rivLenBytes b.length ++ b) := by
  unfold rivSliceBytes; rw [rivSliceLen_ok h]; simp [Out.andThen, Out.ok]

theorem rivSliceBytes_err {b : Bytes} (h : 2^29 ≤ b.length) : rivSliceBytes b = .raise .sliceLengthOutOfRange := by
  unfold rivSliceBytes; rw [rivSliceLen_err h]; simp [Out.andThen, Out.raise]

theorem siaSliceStr_ok {s : Str} (h : s.length < 2^64) :
    siaSliceStr s = .ok (toBytesLE 8 s.length ++ utf8 s) := by
  unfold siaSliceStr; rw [siaInt_ok (by omega) (by omega)]; simp [Out.andThen, Out.ok]

theorem rivSliceStr_ok {s : Str} (h : s.length < 2^29) :
    rivSliceStr s = .ok (rivLenBytes s.length ++ utf8 s) := by
  unfold rivSliceStr; rw [rivSliceLen_ok h]; simp [Out.andThen, Out.ok]

theorem siaSliceDecode_eq {n : Nat} (h : n < 2^64) (s : Bytes) :
    siaSliceDecode (toBytesLE 8 n ++ s) = splitBytes n s := by
  unfold siaSliceDecode
  rw [splitBytes_append' (toBytesLE 8 n) s (by simp)]
  simp only [Option.bind_eq_bind, Option.bind_some]
  rw [leValue_toBytesLE, Nat.mod_eq_of_lt (by omega)]

theorem rivSliceDecode_eq {n : Nat} (h : n < 2^29) (s : Bytes) :
    rivSliceDecode (rivLenBytes n ++ s) = splitBytes n s := by
  unfold rivSliceDecode
  rw [rivLenDecode_rivLenBytes h]; rfl

theorem siaAddSeq_ok (vs : List Val) (h : ∀ v ∈ vs, (siaAdd v).err = none) :
    siaAddSeq vs = ⟨vs.flatMap (fun v => (siaAdd v).bytes), none⟩ := by
  induction vs with
  | nil => rfl
  | cons v vs ih =>
    rw [siaAddSeq, ih (fun w hw => h w (by simp [hw]))]
    simp [Out.andThen, h v (by simp)]

theorem rivAddSeq_ok (vs : List Val) (h : ∀ v ∈ vs, (rivAdd v).err = none) :
    rivAddSeq vs = ⟨vs.flatMap (fun v => (rivAdd v).bytes), none⟩ := by
  induction vs with
  | nil => rfl
  | cons v vs ih =>
    rw [rivAddSeq, ih (fun w hw => h w (by simp [hw]))]
    simp [Out.andThen, h v (by simp)]

theorem siaAddSeq_fail (pre : List Val) (v : Val) (post : List Val) (e : Err)
    (h : ∀ v ∈ pre, (siaAdd v).err = none) (he : (siaAdd v).err = some e) :
    siaAddSeq (pre ++ v :: post) = ⟨pre.flatMap (fun v => (siaAdd v).bytes) ++ (siaAdd v).bytes, some e⟩ := by
  induction pre with
  | nil => simp [siaAddSeq, Out.andThen, he]; rw [← he]
  | cons w pre ih =>
    rw [List.cons_append, siaAddSeq, ih (fun w hw => h w (by simp [hw]))]
    simp [Out.andThen, h w (by simp)]

theorem rivAddSeq_fail (pre : List Val) (v : Val) (post : List Val) (e : Err)
    (h : ∀ v ∈ pre, (rivAdd v).err = none) (he : (rivAdd v).err = some e) :
    rivAddSeq (pre ++ v :: post) = ⟨pre.flatMap (fun v => (rivAdd v).bytes) ++ (rivAdd v).bytes, some e⟩ := by
  induction pre with
  | nil => simp [rivAddSeq, Out.andThen, he]; rw [← he]
  | cons w pre ih =>
    rw [List.cons_append, rivAddSeq, ih (fun w hw => h w (by simp [hw]))]
    simp [Out.andThen, h w (by simp)]

theorem utf8EncodeChar_prefix {c d : Char} {r s : Bytes}
    (h : String.utf8EncodeChar c ++ r = String.utf8EncodeChar d ++ s) : c = d ∧ r = s := by
  have hc : c = d := by
    have h1 := ByteArray.utf8DecodeChar?_utf8EncodeChar_append (b := r.toByteArray) (c := c)
    have h2 := ByteArray.utf8DecodeChar?_utf8EncodeChar_append (b := s.toByteArray) (c := d)
    rw [← List.toByteArray_append] at h1 h2
    rw [h, h2] at h1
    exact (Option.some.inj h1).symm
  subst hc
  exact ⟨rfl, List.append_cancel_left h⟩

theorem utf8_prefix {a b : Str} {r s : Bytes} (hl : a.length = b.length) (h : utf8 a ++ r = utf8 b ++ s) :
    a = b ∧ r = s := by
  induction a generalizing b with
  | nil => cases b with
    | nil => exact ⟨rfl, by simpa [utf8] using h⟩
    | cons => simp at hl
  | cons c a ih => cases b with
    | nil => simp at hl
    | cons d b =>
      simp only [utf8, List.flatMap_cons, List.append_assoc] at h
      obtain ⟨rfl, h'⟩ := utf8EncodeChar_prefix h
      obtain ⟨rfl, h''⟩ := ih (by simpa using hl) h'
      exact ⟨rfl, h''⟩

end TF
