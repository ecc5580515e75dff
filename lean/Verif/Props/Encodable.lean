import Verif.Lemmas.Total
import Verif.Props.Swap
/-! # C99: every transaction that fits the wire format can be encoded, identified and signed -/
namespace TF.Props
open TF Spec

theorem noErr_seqNil : (seqOut []).err = none := rfl
theorem noErr_seqCons {o : Out} {os : List Out} (h : o.err = none) (ht : (seqOut os).err = none) : (seqOut (o :: os)).err = none := by
  simp only [seqOut, Out.andThen, h, ht]
theorem noErr_siaSeq {vs : List Val} (h : ∀ v ∈ vs, (siaAdd v).err = none) : (siaAddSeq vs).err = none := by
  induction vs with
  | nil => rw [siaAddSeq]; rfl
  | cons v vs ih =>
    rw [siaAddSeq]
    have := ih fun w hw => h w (by simp [hw])
    simp only [Out.andThen, h v (by simp), this]
theorem noErr_rivSeq {vs : List Val} (h : ∀ v ∈ vs, (rivAdd v).err = none) : (rivAddSeq vs).err = none := by
  induction vs with
  | nil => rw [rivAddSeq]; rfl
  | cons v vs ih =>
    rw [rivAddSeq]
    have := ih fun w hw => h w (by simp [hw])
    simp only [Out.andThen, h v (by simp), this]

theorem toRes_ok {o : Out} (h : o.err = none) : ∃ b, o.toRes = .ok b := ⟨o.bytes, by unfold Out.toRes; rw [h]⟩

theorem ids_sia {l : List Hash} (hl : Few l) (h : ∀ x ∈ l, HashFits x) : (idsSia l).err = none :=
  (within_andThen (within_siaLen hl) (within_siaMap fun x hx => (within_hash (h x hx)).1)).1
theorem ids_riv {l : List Hash} (hl : Few l) (h : ∀ x ∈ l, HashFits x) : (idsRiv l).err = none :=
  (within_andThen (within_rivInt (n := 8) (by omega) (by have : l.length ≤ 2 ^ 20 := hl; omega)) (within_rivMap fun x hx => (within_hash (h x hx)).2)).1
theorem ids_input {l : List CoinInput} (h : AllFit InputFits l) : Few (l.map CoinInput.parentId) ∧ ∀ x ∈ l.map CoinInput.parentId, HashFits x := by
  refine ⟨by rw [Few, List.length_map]; exact h.1, fun x hx => ?_⟩
  obtain ⟨ci, hci, rfl⟩ := List.mem_map.mp hx
  exact (h.2 ci hci).1
theorem ids_stakeInput {l : List StakeInput} (h : AllFit StakeInputFits l) : Few (l.map StakeInput.parentId) ∧ ∀ x ∈ l.map StakeInput.parentId, HashFits x := by
  refine ⟨by rw [Few, List.length_map]; exact h.1, fun x hx => ?_⟩
  obtain ⟨ci, hci, rfl⟩ := List.mem_map.mp hx
  exact (h.2 ci hci).1
theorem fee_within {c : Option Currency} (h : ∀ x, c = some x → AmountFits x) : (feeOr c).toVal.Within 40 := by
  cases c with
  | none => exact within_amount ⟨good_none, by decide⟩
  | some c => exact within_amount (h c rfl)
theorem key_within {k : Option PublicKey} (h : ∀ x, k = some x → KeyFits x) : (keyOr k).val.Within 56 := by
  cases k with
  | none => exact within_key (Nat.zero_le _)
  | some k => exact within_key (h k rfl)
theorem txSig_within {s : Option Signature} (h : ∀ x, s = some x → SigFits x) : (sigOr s).val.Within 72 := by
  cases s with
  | none => exact within_sig (Nat.zero_le _)
  | some s => exact within_sig (h s rfl)
theorem refund_riv {r : Option CoinOutput} (h : ∀ o, r = some o → OutputFits o) : (refundRiv r).err = none := by
  cases r with
  | none => rfl
  | some o => exact (within_andThen (within_rivInt (n := 1) (by decide) (by decide)) (within_output (h o rfl)).2).1
theorem refund_only {r : Option CoinOutput} (h : ∀ o, r = some o → OutputFits o) : (refundOnly r).err = none := by
  cases r with
  | none => rfl
  | some o => exact (within_output (h o rfl)).2.1
theorem list_sia {α : Type} {f : α → Val} {P : α → Prop} {l : List α} {n : Nat} (h : AllFit P l) (hp : ∀ x, P x → (f x).Within n) :
    (siaAddSlice (.seq (l.map f))).err = none := (within_siaSliceList h.1 fun x hx => (hp x (h.2 x hx)).1).1
theorem list_siaAdd {α : Type} {f : α → Val} {P : α → Prop} {l : List α} {n : Nat} (h : AllFit P l) (hp : ∀ x, P x → (f x).Within n) :
    (siaAdd (.seq (l.map f))).Within (8 + 2 ^ 20 * n) := within_siaList h.1 fun x hx => (hp x (h.2 x hx)).1
theorem list_rivAdd {α : Type} {f : α → Val} {P : α → Prop} {l : List α} {n : Nat} (h : AllFit P l) (hp : ∀ x, P x → (f x).Within n) :
    (rivAdd (.seq (l.map f))).err = none := (within_rivList h.1 fun x hx => (hp x (h.2 x hx)).2).1
theorem count_all {α : Type} {P : α → Prop} {l : List α} (h : CountFits P l) : AllFit P l := ⟨by unfold Few; have := h.1; omega, h.2⟩
theorem each_riv {α : Type} {f : α → Val} {P : α → Prop} {l : List α} {n : Nat} (h : CountFits P l) (hp : ∀ x, P x → (f x).Within n) :
    (rivAddSeq (l.map f)).err = none := (within_rivMap fun x hx => (hp x (h.2 x hx)).2).1
theorem half {i : Option Int} (h : ∀ x, i = some x → HalfWord x) : (rivInt32 (i.getD 0)).err = none := by
  cases i with
  | none => rfl
  | some x => exact (within_rivInt (n := 4) (h x rfl).1 (by have := (h x rfl).2; show x < 2 ^ 32; omega)).1
theorem data_err {b : Bytes} (h : b.length ≤ 2 ^ 32) : (siaAdd (dataVal b)).err = none := (within_data h).1
theorem riv2 {a b : Val} (ha : (rivAdd a).err = none) (hb : (rivAdd b).err = none) : (rivAddSeq [a, b]).err = none :=
  noErr_rivSeq fun v hv => by
    simp only [List.mem_cons, List.not_mem_nil, or_false] at hv
    rcases hv with rfl | rfl <;> assumption

/-- What may be added to what is signed: encodable by both encoders. -/
def ExtrasFit (vs : List Val) : Prop := ∀ v ∈ vs, (siaAdd v).err = none ∧ (rivAdd v).err = none

theorem sigInput_fits {L : IpLib} (hL : LawfulIp L) (H : Bytes → Bytes) {t : Tx} (ht : TxFits L t) {ex : List Val} (hx : ExtrasFit ex) :
    ∃ b, t.sigInput H ex = .ok b := by
  have hs : (siaAddSeq ex).err = none := noErr_siaSeq fun v hv => (hx v hv).1
  have hr : (rivAddSeq ex).err = none := noErr_rivSeq fun v hv => (hx v hv).2
  refine toRes_ok ?_
  cases t with
  | v1 t =>
    obtain ⟨h0, h1, h2, h3, h4, h5, h6⟩ := ht
    show (t.sigInput H ex).err = none
    unfold TxV1.sigInput
    rw [if_neg (by rw [h0]; simp)]
    exact noErr_seqCons rfl <| noErr_seqCons hs <| noErr_seqCons (ids_sia (ids_input h1).1 (ids_input h1).2) <|
      noErr_seqCons (list_sia h2 fun _ => within_output) <| noErr_seqCons (ids_sia (ids_stakeInput h3).1 (ids_stakeInput h3).2) <|
      noErr_seqCons (list_sia h4 fun _ => within_stakeOutput) <| noErr_seqCons (list_sia h5 fun _ => within_amount) <| noErr_seqCons (data_err h6) rfl
  | v128 t =>
    obtain ⟨-, h2, h3, h4⟩ := ht
    exact noErr_seqCons rfl <| noErr_seqCons rfl <| noErr_seqCons rfl <| noErr_seqCons hs <| noErr_seqCons (within_condition h2).1.1 <|
      noErr_seqCons (list_sia h3 fun _ => within_amount) <| noErr_seqCons (data_err h4) rfl
  | v129 t =>
    obtain ⟨-, h2, h3, h4⟩ := ht
    exact noErr_seqCons rfl <| noErr_seqCons rfl <| noErr_seqCons rfl <| noErr_seqCons hs <| noErr_seqCons (list_sia h2 fun _ => within_output) <|
      noErr_seqCons (list_sia h3 fun _ => within_amount) <| noErr_seqCons (data_err h4) rfl
  | v144 t =>
    obtain ⟨h1, h2, h3, h4, h5, h6, h7, -⟩ := ht
    exact noErr_seqCons rfl <| noErr_seqCons rfl <| noErr_seqCons hr <|
      noErr_seqCons (riv2 (list_rivAdd (count_all h1) fun _ => within_net hL) (list_rivAdd (count_all h2) fun _ => within_name)) <|
      noErr_seqCons (within_rivInt (n := 1) h3.1 (by have := h3.2; omega)).1 <| noErr_seqCons (ids_riv (ids_input h5).1 (ids_input h5).2) <|
      noErr_seqCons (fee_within h4).2.1 <| noErr_seqCons (refund_riv h6) <| noErr_seqCons (key_within h7).2.1 rfl
  | v145 t =>
    obtain ⟨h0, h1, h1', h2, h2', h3, h4, h5, h6, -⟩ := ht
    exact noErr_seqCons rfl <| noErr_seqCons rfl <| noErr_seqCons (half h0) <| noErr_seqCons hr <|
      noErr_seqCons (riv2 (list_rivAdd (count_all h1) fun _ => within_net hL) (list_rivAdd (count_all h1') fun _ => within_net hL)) <|
      noErr_seqCons (riv2 (list_rivAdd (count_all h2) fun _ => within_name) (list_rivAdd (count_all h2') fun _ => within_name)) <|
      noErr_seqCons (within_rivInt (n := 1) h3.1 (by have := h3.2; omega)).1 <| noErr_seqCons (ids_riv (ids_input h5).1 (ids_input h5).2) <|
      noErr_seqCons (fee_within h4).2.1 <| noErr_seqCons (refund_riv h6) rfl
  | v146 t =>
    obtain ⟨h0, h1, h2, h3, ⟨l, hl, h4⟩, h5, -, -⟩ := ht
    refine noErr_seqCons rfl <| noErr_seqCons rfl <| noErr_seqCons (half h0) <| noErr_seqCons (half h1) <| noErr_seqCons hr <|
      noErr_seqCons (list_rivAdd (count_all h2) fun _ => within_name) <| noErr_seqCons ?_ <|
      noErr_seqCons (fee_within h3).2.1 <| noErr_seqCons (refund_riv h5) rfl
    rw [hl]; exact ids_riv (ids_input h4).1 (ids_input h4).2
  | v208 t =>
    obtain ⟨h1, h2, h3, h4⟩ := ht
    exact noErr_seqCons rfl <| noErr_seqCons rfl <| noErr_seqCons (riv2 (by rw [erc20Val, rivAdd_obj]; rfl) (within_amount h1).2.1) <| noErr_seqCons hr <|
      noErr_seqCons (ids_riv (ids_input h3).1 (ids_input h3).2) <| noErr_seqCons (fee_within h2).2.1 <| noErr_seqCons (refund_riv h4) rfl
  | v209 t =>
    obtain ⟨h1, h2, h3⟩ := ht
    refine noErr_seqCons rfl <| noErr_seqCons rfl <| noErr_seqCons hs <| noErr_seqCons (within_seq2 (within_address h1) (within_amount h2)).1.1 <|
      noErr_seqCons (noErr_siaSeq fun v hv => ?_) <| noErr_seqCons (noErr_siaSeq fun v hv => ?_) rfl
    · simp only [List.mem_cons, List.not_mem_nil, or_false] at hv; subst hv; exact (fee_within h3).1.1
    · simp only [List.mem_cons, List.not_mem_nil, or_false] at hv
      rcases hv with rfl | rfl <;> (rw [erc20Val, siaAdd_obj]; rfl)
  | v210 t =>
    obtain ⟨h1, -, h3, ⟨l, hl, h4⟩, h5⟩ := ht
    refine noErr_seqCons rfl <| noErr_seqCons rfl <| noErr_seqCons (key_within h1).2.1 <| noErr_seqCons hr <| noErr_seqCons ?_ <|
      noErr_seqCons (riv2 (within_amount ⟨⟨rfl, by decide⟩, by decide⟩).2.1 (fee_within h3).2.1) <| noErr_seqCons (refund_riv h5) rfl
    rw [hl]; exact ids_riv (ids_input h4).1 (ids_input h4).2

theorem packed_fits {a b : Nat} (ha : a ≤ 15) (hb : b ≤ 15) : (packedCounts a b).err = none := by
  refine (within_rivInt (n := 1) (by omega) ?_).1
  rw [or_shl _ _ 4 (by omega)]; omega
theorem months_fits {m : Int} (h : 0 ≤ m ∧ m ≤ 24) (a b c : Bool) : (monthsAndFlags m a b c).err = none := by
  unfold monthsAndFlags
  rw [if_neg (by omega)]
  obtain ⟨n, rfl⟩ : ∃ n : Nat, m = n := ⟨m.toNat, by omega⟩
  obtain ⟨-, h⟩ := h
  have hn : n < 25 := by omega
  clear h
  rw [Int.toNat_natCast]
  revert n a b c; decide

theorem fulfillment_getD {f : Option Fulfillment} (h : ∀ x, f = some x → FulfillmentFits x) : FulfillmentFits (f.getD (.single .default none)) := by
  cases f with
  | none => exact ⟨Nat.zero_le _, fun _ h => nomatch h⟩
  | some f => exact h f rfl

theorem insVal_fits {l : Option (List CoinInput)} (h : ∃ x, l = some x ∧ AllFit InputFits x) : (rivAdd (insVal l)).err = none := by
  obtain ⟨x, rfl, h⟩ := h
  exact list_rivAdd h fun _ => within_input

theorem v1_within (H : Bytes → Bytes) {t : TxV1} {L : IpLib} (ht : TxFits L (.v1 t)) : (t.binaryData H).Within (2 ^ 60) := by
  obtain ⟨h0, h1, h2, h3, h4, h5, h6⟩ := ht
  unfold TxV1.binaryData
  rw [if_neg (by rw [h0]; simp)]
  exact (within_siaCons (list_siaAdd h1 fun _ => within_input) <| within_siaCons (list_siaAdd h2 fun _ => within_output) <|
    within_siaCons (list_siaAdd h3 fun _ => within_stakeInput) <| within_siaCons (list_siaAdd h4 fun _ => within_stakeOutput) <|
    within_siaCons (list_siaAdd h5 fun _ => within_amount) <| within_siaCons (within_data h6) within_siaNil).mono (by omega)

theorem binaryData_fits {L : IpLib} (hL : LawfulIp L) (H : Bytes → Bytes) {t : Tx} (ht : TxFits L t) : (t.binaryData H).err = none := by
  cases t with
  | v1 t => exact (v1_within H ht).1
  | v128 t =>
    obtain ⟨h1, h2, h3, h4⟩ := ht
    exact noErr_seqCons rfl <| noErr_seqCons (within_siaCons (within_fulfillment (fulfillment_getD h1)).1 <| within_siaCons (within_condition h2).1 <|
      within_siaCons (list_siaAdd h3 fun _ => within_amount) <| within_siaCons (within_data h4) within_siaNil).1 rfl
  | v129 t =>
    obtain ⟨h1, h2, h3, h4⟩ := ht
    exact noErr_seqCons rfl <| noErr_seqCons (within_siaCons (within_fulfillment (fulfillment_getD h1)).1 <|
      within_siaCons (list_siaAdd h2 fun _ => within_output) <|
      within_siaCons (list_siaAdd h3 fun _ => within_amount) <| within_siaCons (within_data h4) within_siaNil).1 rfl
  | v144 t =>
    obtain ⟨h1, h2, h3, h4, h5, h6, h7, h8⟩ := ht
    exact noErr_seqCons (months_fits h3 _ _ _) <| noErr_seqCons (packed_fits h1.1 h2.1) <| noErr_seqCons (each_riv h1 fun _ => within_net hL) <|
      noErr_seqCons (each_riv h2 fun _ => within_name) <| noErr_seqCons (riv2 (fee_within h4).2.1 (list_rivAdd h5 fun _ => within_input)) <|
      noErr_seqCons (refund_only h6) <| noErr_seqCons (riv2 (key_within h7).2.1 (txSig_within h8).2.1) rfl
  | v145 t =>
    obtain ⟨h0, h1, h1', h2, h2', h3, h4, h5, h6, h7⟩ := ht
    refine noErr_seqCons (half h0) <| noErr_seqCons (months_fits h3 _ _ _) <| noErr_seqCons ?_ <| noErr_seqCons ?_ <|
      noErr_seqCons (riv2 (fee_within h4).2.1 (list_rivAdd h5 fun _ => within_input)) <| noErr_seqCons (refund_only h6) <| noErr_seqCons (txSig_within h7).2.1 rfl
    · split
      · exact noErr_seqCons (packed_fits h1.1 h1'.1) <| noErr_seqCons (each_riv h1 fun _ => within_net hL) <| noErr_seqCons (each_riv h1' fun _ => within_net hL) rfl
      · rfl
    · split
      · exact noErr_seqCons (packed_fits h2.1 h2'.1) <| noErr_seqCons (each_riv h2 fun _ => within_name) <| noErr_seqCons (each_riv h2' fun _ => within_name) rfl
      · rfl
  | v146 t =>
    obtain ⟨h0, h1, h2, h3, h4, h5, h6, h7⟩ := ht
    refine noErr_seqCons (half h0) <| noErr_seqCons (txSig_within h6).2.1 <| noErr_seqCons (half h1) <| noErr_seqCons (txSig_within h7).2.1 <|
      noErr_seqCons ?_ <| noErr_seqCons (each_riv h2 fun _ => within_name) <| noErr_seqCons (riv2 (fee_within h3).2.1 (insVal_fits h4)) <| noErr_seqCons (refund_only h5) rfl
    refine (within_rivInt (n := 1) (by omega) ?_).1
    have hl := h2.1
    split
    · have : t.names.length ||| 16 < 2 ^ 8 := Nat.or_lt_two_pow (by omega) (by omega)
      omega
    · omega
  | v208 t =>
    obtain ⟨h1, h2, h3, h4⟩ := ht
    refine noErr_seqCons (noErr_rivSeq fun v hv => ?_) <| noErr_seqCons (refund_riv h4) rfl
    simp only [List.mem_cons, List.not_mem_nil, or_false] at hv
    rcases hv with rfl | rfl | rfl | rfl
    · rw [erc20Val, rivAdd_obj]; rfl
    · exact (within_amount h1).2.1
    · exact (fee_within h2).2.1
    · exact list_rivAdd h3 fun _ => within_input
  | v209 t =>
    obtain ⟨h1, h2, h3⟩ := ht
    refine noErr_rivSeq fun v hv => ?_
    simp only [List.mem_cons, List.not_mem_nil, or_false] at hv
    rcases hv with rfl | rfl | rfl | rfl | rfl
    · exact (within_address h1).2.1
    · exact (within_amount h2).2.1
    · exact (fee_within h3).2.1
    · rw [erc20Val, rivAdd_obj]; rfl
    · rw [erc20Val, rivAdd_obj]; rfl
  | v210 t =>
    obtain ⟨h1, h2, h3, h4, h5⟩ := ht
    refine noErr_seqCons (noErr_rivSeq fun v hv => ?_) <| noErr_seqCons (refund_riv h5) rfl
    simp only [List.mem_cons, List.not_mem_nil, or_false] at hv
    rcases hv with rfl | rfl | rfl | rfl | rfl
    · exact (key_within h1).2.1
    · exact (txSig_within h2).2.1
    · exact (within_amount ⟨⟨rfl, by decide⟩, by decide⟩).2.1
    · exact (fee_within h3).2.1
    · exact insVal_fits h4

theorem andThen_ok (b : Bytes) {o : Out} (h : o.err = none) : ∃ x, ((Out.ok b).andThen o).toRes = .ok x :=
  toRes_ok (by simp only [Out.andThen, Out.ok, h])

/-- C99: a transaction that fits the wire format can be encoded. -/
theorem C99_encodes (L : IpLib) (hL : LawfulIp L) (H : Bytes → Bytes) (t : Tx) (ht : TxFits L t) : ∃ b, t.binaryEncode H = .ok b := by
  cases t with
  | v1 t =>
    unfold Tx.binaryEncode; simp only
    rw [if_neg (by rw [ht.1]; simp)]
    exact andThen_ok _ (within_siaNested (v1_within H ht) (by omega)).1
  | _ => exact andThen_ok _ (binaryData_fits hL H ht)

/-- C99: and has an identifier. -/
theorem C99_identified (L : IpLib) (hL : LawfulIp L) (H : Bytes → Bytes) (t : Tx) (ht : TxFits L t) : ∃ b, t.idInput H = .ok b := by
  cases t with
  | v1 t => exact C99_encodes L hL H _ ht
  | _ => exact andThen_ok _ (binaryData_fits hL H ht)

theorem outputId_total {H : Bytes → Bytes} (hH : Digest32 H) {t : Tx} {b : Bytes} (hb : t.idInput H = .ok b) {i : Nat} (hi : i < t.coinOutputs.length)
    (hlen : (i : Int) < 2 ^ 64) : ∃ h, t.coinOutputId H i = .ok h := by
  obtain ⟨x, hx⟩ := toRes_ok (o := seqOut [.ok t.coinSpec, .ok b, siaInt i])
    (noErr_seqCons rfl <| noErr_seqCons rfl <| noErr_seqCons (within_siaInt ⟨by omega, hlen⟩).1 rfl)
  have e : t.coinOutputIdInput H i = .ok x := by
    unfold Tx.coinOutputIdInput Tx.outputIdInput
    rw [if_neg (by omega), hb]; exact hx
  unfold Tx.coinOutputId
  rw [e]
  show ∃ h, Hash.new (.bytes (H x)) = .ok h
  refine ⟨⟨H x⟩, ?_⟩
  unfold Hash.new
  have hd : BinData.new (.bytes (H x)) (some 32) .hex = .ok ⟨H x, some 32, .hex⟩ := binNew32.mpr ⟨⟨rfl, .inr (hH x)⟩, rfl, rfl⟩
  rw [hd]; rfl

/-- C99: and so has each of its coin outputs. -/
theorem C99_output_ids (L : IpLib) (hL : LawfulIp L) (H : Bytes → Bytes) (hH : Digest32 H) (t : Tx) (ht : TxFits L t) (i : Nat) (hi : i < t.coinOutputs.length) :
    ∃ h, t.coinOutputId H i = .ok h := by
  have hlen : (i : Int) < 2 ^ 64 := by
    have hb : t.coinOutputs.length ≤ 2 ^ 20 := by
      have ho : ∀ o : Option CoinOutput, o.toList.length ≤ 2 ^ 20 := fun o => by cases o <;> simp
      cases t with
      | v1 t => exact ht.2.2.1.1
      | v128 t => exact Nat.zero_le _
      | v129 t => exact ht.2.1.1
      | v209 t => show 1 ≤ 2 ^ 20; omega
      | _ => exact ho _
    omega
  obtain ⟨b, hb⟩ := C99_identified L hL H t ht
  exact outputId_total hH hb hi hlen

theorem extras_fit {f : Fulfillment} (hf : FulfillmentFits f) {pk : PublicKey} (hk : KeyFits pk) : ExtrasFit (f.hashExtras pk) := by
  have h1 := within_key hk
  intro v hv
  unfold Fulfillment.hashExtras at hv
  split at hv
  · cases hv
  · simp only [List.mem_cons, List.not_mem_nil, or_false] at hv; subst hv; exact ⟨h1.1.1, h1.2.1⟩
  · simp only [List.mem_cons, List.not_mem_nil, or_false] at hv; subst hv; exact ⟨h1.1.1, h1.2.1⟩
  · simp only [List.mem_cons, List.not_mem_nil, or_false] at hv
    rcases hv with rfl | rfl
    · exact ⟨h1.1.1, h1.2.1⟩
    · have := within_secret (hf.2.2 _ rfl); exact ⟨this.1.1, this.2.1⟩
theorem extras_cons {i : Nat} {vs : List Val} (hi : i < 2 ^ 20) (h : ExtrasFit vs) : ExtrasFit (.int i :: vs) := by
  have hw : Word i := ⟨by omega, by omega⟩
  intro v hv
  rcases List.mem_cons.mp hv with rfl | hv
  · exact ⟨(within_siaWord hw).1, (within_rivWord hw).1⟩
  · exact h v hv

theorem inputs_fit {L : IpLib} {t : Tx} (ht : TxFits L t) {l : List CoinInput} (hl : t.coinInputs = some l) : AllFit InputFits l := by
  cases t with
  | v1 t => cases hl; exact ht.2.1
  | v128 t => cases hl; exact ⟨Nat.zero_le _, fun _ h => nomatch h⟩
  | v129 t => cases hl; exact ⟨Nat.zero_le _, fun _ h => nomatch h⟩
  | v144 t => cases hl; exact ht.2.2.2.2.1
  | v145 t => cases hl; exact ht.2.2.2.2.2.2.2.1
  | v146 t => obtain ⟨-, -, -, -, ⟨x, hx, h⟩, -⟩ := ht; cases hx.symm.trans hl; exact h
  | v208 t => cases hl; exact ht.2.2.1
  | v209 t => cases hl; exact ⟨Nat.zero_le _, fun _ h => nomatch h⟩
  | v210 t => obtain ⟨-, -, -, ⟨x, hx, h⟩, -⟩ := ht; cases hx.symm.trans hl; exact h

/-- C99: and for each place where a signature goes there are bytes to sign, for every key. -/
theorem C99_signable (L : IpLib) (hL : LawfulIp L) (H : Bytes → Bytes) (t : Tx) (ht : TxFits L t) (tgt : SigTarget) (h : HasTarget t tgt) (pk : PublicKey)
    (hk : KeyFits pk) : ∃ b, t.preimage H tgt pk = .ok b := by
  cases tgt with
  | coin i =>
    obtain ⟨l, hl, hi⟩ := h
    obtain ⟨hf, hall⟩ := inputs_fit ht hl
    unfold Tx.preimage
    simp only [hl, List.getElem?_eq_getElem hi]
    exact sigInput_fits hL H ht (extras_cons (by have : l.length ≤ 2 ^ 20 := hf; omega) (extras_fit (hall _ (List.getElem_mem hi)).2 hk))
  | stake i =>
    have hi : i < t.stakeInputs.length := h
    unfold Tx.preimage
    simp only [List.getElem?_eq_getElem hi]
    have hall : AllFit StakeInputFits t.stakeInputs := by
      cases t with
      | v1 t => exact ht.2.2.2.1
      | _ => exact absurd h (Nat.not_lt_zero _)
    exact sigInput_fits hL H ht (extras_cons (by have : t.stakeInputs.length ≤ 2 ^ 20 := hall.1; omega) (extras_fit (hall.2 _ (List.getElem_mem hi)).2 hk))
  | mint =>
    cases t with
    | v128 t =>
      have h : t.mintFulfillment ≠ none := h
      unfold Tx.preimage
      cases hm : t.mintFulfillment with
      | none => exact absurd hm h
      | some f => simp only [hm]; exact sigInput_fits hL H ht (extras_fit (ht.1 f hm) hk)
    | v129 t =>
      have h : t.mintFulfillment ≠ none := h
      unfold Tx.preimage
      cases hm : t.mintFulfillment with
      | none => exact absurd hm h
      | some f => simp only [hm]; exact sigInput_fits hL H ht (extras_fit (ht.1 f hm) hk)
    | _ => exact h.elim
  | self spec =>
    refine sigInput_fits hL H ht fun v hv => ?_
    simp only [List.mem_cons, List.not_mem_nil, or_false] at hv
    subst hv
    rw [siaAdd_obj, rivAdd_obj]; exact ⟨rfl, rfl⟩

instance {α : Type} (l : List α) : Decidable (Few l) := inferInstanceAs (Decidable (_ ≤ _))
instance (v : Int) : Decidable (Word v) := inferInstanceAs (Decidable (_ ∧ _))
instance (h : Hash) : Decidable (HashFits h) := inferInstanceAs (Decidable (_ ≤ _))
instance (k : PublicKey) : Decidable (KeyFits k) := inferInstanceAs (Decidable (HashFits _))
instance (s : Signature) : Decidable (SigFits s) := inferInstanceAs (Decidable (_ ≤ _))
instance (c : Currency) : Decidable (GoodCurrency c) := inferInstanceAs (Decidable (_ ∧ _))
instance (c : Currency) : Decidable (AmountFits c) := inferInstanceAs (Decidable (_ ∧ _))

/-- An ordinary transaction: it spends a single-signature and a multi-signature output, pays into a time-locked multi-signature condition and an atomic
swap, and is not signed yet. -/
def ordinaryTx : Tx := .v1 {
  coinInputs := [⟨⟨List.replicate 32 1⟩, .single .default none, none⟩, ⟨⟨List.replicate 32 2⟩, .multi [⟨key1, ⟨List.replicate 64 3, false⟩⟩], none⟩]
  coinOutputs := [⟨⟨some ⟨false, 5, 0⟩⟩, .lockTime 12345 (.multiSig [addrOf key1, addrOf key2] 2), ⟨[]⟩⟩,
    ⟨⟨some ⟨false, 25, -9⟩⟩, .atomicSwap (addrOf key1) (addrOf key2) (some (List.replicate 32 7)) 1600000000, ⟨[]⟩⟩]
  minerFees := [⟨some ⟨false, 1, -1⟩⟩], data := [1, 2, 3] }

/-- It fits the wire format. -/
example : TxFits toyIp ordinaryTx := by
  refine ⟨rfl, ⟨by decide, ?_⟩, ⟨by decide, ?_⟩, ⟨by decide, fun _ h => nomatch h⟩, ⟨by decide, fun _ h => nomatch h⟩, ⟨by decide, by decide⟩, by decide⟩
  · intro ci h
    simp only [List.mem_cons, List.not_mem_nil, or_false] at h
    rcases h with rfl | rfl
    · exact ⟨by decide, by decide, fun _ h => nomatch h⟩
    · exact ⟨by decide, by decide, by decide⟩
  · intro co h
    simp only [List.mem_cons, List.not_mem_nil, or_false] at h
    rcases h with rfl | rfl
    · exact ⟨by decide, by decide, by decide, by decide, by decide, by decide⟩
    · exact ⟨by decide, by decide, by decide, fun b h => by cases h; decide, by decide⟩

/-! ## Legacy transactions -/

theorem noErr_map {α : Type} {f : α → Out} {l : List α} (h : ∀ x ∈ l, (f x).err = none) : (seqOut (l.map f)).err = none := by
  induction l with
  | nil => rfl
  | cons x l ih => exact noErr_seqCons (h x (by simp)) (ih fun y hy => h y (by simp [hy]))

theorem address_noErr (u : UnlockHash) : (siaAdd u.val).err = none := by
  have ht : u.type.toNat < 256 := u.type.toNat_lt
  rw [UnlockHash.val, siaAdd_obj]
  unfold UnlockHash.sia siaAddByte; simp only
  rw [if_neg (by omega)]; rfl

/-- Every condition that fits has an address. -/
theorem unlockhash_total (H : Bytes → Bytes) {c : Condition} (h : ConditionFits c) : ∃ u, c.unlockhash H = .ok u := by
  induction c with
  | nil => exact ⟨_, rfl⟩
  | unlockHash u => exact ⟨_, rfl⟩
  | atomicSwap s r hs t =>
    obtain ⟨b, hb, hl⟩ := (within_swapData h.1 h.2.1 h.2.2.1 h.2.2.2).2.toRes
    obtain ⟨e, he, -⟩ := (within_siaSlice (b := b) (by omega)).toRes
    exact ⟨⟨2, ⟨H e⟩⟩, by simp only [Condition.unlockhash, hb, he, bind, Except.bind]; rfl⟩
  | lockTime l c ih => exact ih h.2.2
  | multiSig owners n =>
    obtain ⟨h1, -, h3⟩ := h
    have hl := multiSigLeaves_eq H owners n h3.1 h3.2 (by have : owners.length ≤ 2 ^ 20 := h1; omega)
    refine ⟨⟨3, ⟨merkle H (toBytesLE 8 owners.length :: (sortOwners H owners).map (fun u => u.type :: u.hash.value) ++ [toBytesLE 8 n.toNat])⟩⟩, ?_⟩
    simp only [Condition.unlockhash, hl, bind, Except.bind]
    rw [C07_merkle_root H _ (by simp)]; rfl

theorem legacyOutput_fits (H : Bytes → Bytes) {v : Val} {c : Condition} {n : Nat} (hv : v.Within n) (hc : ConditionFits c) : (legacyOutput H v c).err = none := by
  obtain ⟨u, hu⟩ := unlockhash_total H hc
  unfold legacyOutput; rw [hu]
  refine noErr_siaSeq fun x hx => ?_
  simp only [List.mem_cons, List.not_mem_nil, or_false] at hx
  rcases hx with rfl | rfl
  · exact hv.1.1
  · exact address_noErr u

theorem legacyKey_fits {f : Fulfillment} (h : FulfillmentFits f) (h1 : OneSigner f) : ∃ k, legacyKey f = .ok k ∧ KeyFits k := by
  cases f with
  | single k s => exact ⟨k, rfl, h.1⟩
  | swap k s x => exact ⟨k, rfl, h.1⟩
  | multi ps => exact h1.elim

theorem legacyInput_fits (H : Bytes → Bytes) {p : Hash} {f : Fulfillment} (hp : HashFits p) (h : FulfillmentFits f) (h1 : OneSigner f) :
    (legacyInput H p f).err = none := by
  obtain ⟨k, hk, hf⟩ := legacyKey_fits h h1
  obtain ⟨e, hu⟩ := key_unlockhash H hf
  unfold legacyInput; rw [hk]
  simp only [Out.ofRes, hu]
  refine noErr_siaSeq fun x hx => ?_
  simp only [List.mem_cons, List.not_mem_nil, or_false] at hx
  rcases hx with rfl | rfl
  · exact (within_hash hp).1.1
  · exact address_noErr _

theorem legacyInputBinary_fits {p : Hash} {f : Fulfillment} (hp : HashFits p) (h : FulfillmentFits f) (h1 : OneSigner f) : (legacyInputBinary p f).err = none := by
  unfold legacyInputBinary
  cases f with
  | single k s =>
    simp only [legacyKey, Out.ofRes]
    exact noErr_seqCons (within_hash hp).1.1 <| noErr_seqCons rfl <| noErr_seqCons (within_siaNested (within_key h.1).1 (by omega)).1 <|
      noErr_seqCons (within_sig (sigFits_getD h.2)).1.1 rfl
  | swap k s x =>
    simp only [legacyKey, Out.ofRes]
    exact noErr_seqCons (within_hash hp).1.1 <| noErr_seqCons rfl <| noErr_seqCons (within_siaNested (within_key h.1).1 (by omega)).1 <|
      noErr_seqCons (within_sig (sigFits_getD h.2.1)).1.1 rfl
  | multi ps => exact h1.elim

theorem legacy_sigInput_fits (H : Bytes → Bytes) {t : TxV1} (ht : LegacyFits t) {ex : List Val} (hx : ExtrasFit ex) : ∃ b, (Tx.v1 t).sigInput H ex = .ok b := by
  obtain ⟨h0, h1, h2, h3, h4, h5, h6, h7, h8⟩ := ht
  refine toRes_ok ?_
  show (t.sigInput H ex).err = none
  unfold TxV1.sigInput TxV1.legacySigInput
  rw [if_pos h0]
  exact noErr_seqCons (noErr_siaSeq fun v hv => (hx v hv).1) <|
    noErr_seqCons (noErr_map fun ci hc => legacyInput_fits H (h1.2 ci hc).1 (h1.2 ci hc).2 (h7 ci hc)) <|
    noErr_seqCons (within_siaLen h2.1).1 <|
    noErr_seqCons (noErr_map fun co hc => legacyOutput_fits H (within_amount (h2.2 co hc).1) (h2.2 co hc).2) <|
    noErr_seqCons (noErr_map fun ci hc => legacyInput_fits H (h3.2 ci hc).1 (h3.2 ci hc).2 (h8 ci hc)) <|
    noErr_seqCons (within_siaLen h4.1).1 <|
    noErr_seqCons (noErr_map fun co hc => legacyOutput_fits H (within_stake (h4.2 co hc).1) (h4.2 co hc).2) <|
    noErr_seqCons (list_sia h5 fun _ => within_amount) <| noErr_seqCons (data_err h6) rfl

/-- C99: a legacy transaction that fits the wire format can be encoded. -/
theorem C99_legacy_encodes (H : Bytes → Bytes) (t : TxV1) (ht : LegacyFits t) : ∃ b, (Tx.v1 t).binaryEncode H = .ok b := by
  obtain ⟨h0, h1, h2, h3, h4, h5, h6, h7, h8⟩ := ht
  unfold Tx.binaryEncode; simp only
  rw [if_pos h0]
  refine andThen_ok _ ?_
  unfold TxV1.binaryData
  rw [if_pos h0]
  exact noErr_seqCons (within_siaLen h1.1).1 <|
    noErr_seqCons (noErr_map fun ci hc => legacyInputBinary_fits (h1.2 ci hc).1 (h1.2 ci hc).2 (h7 ci hc)) <|
    noErr_seqCons (within_siaLen h2.1).1 <|
    noErr_seqCons (noErr_map fun co hc => legacyOutput_fits H (within_amount (h2.2 co hc).1) (h2.2 co hc).2) <|
    noErr_seqCons (within_siaLen h3.1).1 <|
    noErr_seqCons (noErr_map fun ci hc => legacyInputBinary_fits (h3.2 ci hc).1 (h3.2 ci hc).2 (h8 ci hc)) <|
    noErr_seqCons (within_siaLen h4.1).1 <|
    noErr_seqCons (noErr_map fun co hc => legacyOutput_fits H (within_stake (h4.2 co hc).1) (h4.2 co hc).2) <|
    noErr_seqCons (within_siaCons (list_siaAdd h5 fun _ => within_amount) <| within_siaCons (within_data h6) within_siaNil).1 rfl

/-- C99: and has an identifier, and so has each of its coin outputs. -/
theorem C99_legacy_identified (H : Bytes → Bytes) (hH : Digest32 H) (t : TxV1) (ht : LegacyFits t) :
    (∃ b, (Tx.v1 t).idInput H = .ok b) ∧ ∀ i < t.coinOutputs.length, ∃ h, (Tx.v1 t).coinOutputId H i = .ok h := by
  obtain ⟨b, hb⟩ := C99_legacy_encodes H t ht
  have hb : (Tx.v1 t).idInput H = .ok b := hb
  refine ⟨⟨b, hb⟩, fun i hi => ?_⟩
  have hl : t.coinOutputs.length ≤ 2 ^ 20 := ht.2.2.1.1
  exact outputId_total hH hb hi (by omega)

/-- C99: and for each place where a signature goes there are bytes to sign, for every key. -/
theorem C99_legacy_signable (H : Bytes → Bytes) (t : TxV1) (ht : LegacyFits t) (tgt : SigTarget) (h : HasTarget (.v1 t) tgt) (pk : PublicKey)
    (hk : KeyFits pk) : ∃ b, (Tx.v1 t).preimage H tgt pk = .ok b := by
  have ⟨_, h1, _, h3, _⟩ := ht
  cases tgt with
  | coin i =>
    obtain ⟨l, hl, hi⟩ := h
    cases hl
    unfold Tx.preimage
    simp only [Tx.coinInputs, List.getElem?_eq_getElem hi]
    exact legacy_sigInput_fits H ht (extras_cons (by have : t.coinInputs.length ≤ 2 ^ 20 := h1.1; omega) (extras_fit (h1.2 _ (List.getElem_mem hi)).2 hk))
  | stake i =>
    have hi : i < t.stakeInputs.length := h
    unfold Tx.preimage
    simp only [Tx.stakeInputs, List.getElem?_eq_getElem hi]
    exact legacy_sigInput_fits H ht (extras_cons (by have : t.stakeInputs.length ≤ 2 ^ 20 := h3.1; omega) (extras_fit (h3.2 _ (List.getElem_mem hi)).2 hk))
  | mint => exact h.elim
  | self spec =>
    refine legacy_sigInput_fits H ht fun v hv => ?_
    simp only [List.mem_cons, List.not_mem_nil, or_false] at hv
    subst hv
    rw [siaAdd_obj, rivAdd_obj]; exact ⟨rfl, rfl⟩

theorem legacyMap_raises {f : CoinInput → Out} {l : List CoinInput} (hm : ∀ ci ∈ l, (∃ ps, ci.fulfillment = .multi ps) → (f ci).err = some .attributeError)
    (hs : ∀ ci ∈ l, OneSigner ci.fulfillment → (f ci).err = none) {ci : CoinInput} (hc : ci ∈ l) {ps : List KeySig} (hf : ci.fulfillment = .multi ps) :
    (seqOut (l.map f)).err = some .attributeError := by
  induction l with
  | nil => cases hc
  | cons x l ih =>
    rw [List.map_cons, seqOut]
    by_cases hx : OneSigner x.fulfillment
    · have := hs x (by simp) hx
      have hc : ci ∈ l := by
        rcases List.mem_cons.mp hc with rfl | hc
        · rw [hf] at hx; exact hx.elim
        · exact hc
      simp only [Out.andThen, this, ih (fun y hy => hm y (by simp [hy])) (fun y hy => hs y (by simp [hy])) hc]
    · have : ∃ ps, x.fulfillment = .multi ps := by
        cases e : x.fulfillment with
        | multi ps => exact ⟨ps, rfl⟩
        | _ => rw [e] at hx; exact absurd trivial hx
      simp only [Out.andThen, hm x (by simp) this]

/-- C99: the legacy wire format has one key and one signature per input. A legacy transaction that spends a multi-signature output, whatever else it
contains, can be neither encoded nor identified: AttributeError. -/
theorem C99_legacy_multisig_unfit (H : Bytes → Bytes) (t : TxV1) (hl : t.legacy = true) (h1 : AllFit InputFits t.coinInputs) (ci : CoinInput)
    (hc : ci ∈ t.coinInputs) (ps : List KeySig) (hf : ci.fulfillment = .multi ps) :
    (Tx.v1 t).binaryEncode H = .error .attributeError ∧ (Tx.v1 t).idInput H = .error .attributeError := by
  have key : (Tx.v1 t).binaryEncode H = .error .attributeError := by
    have hi := legacyMap_raises (f := fun ci => legacyInputBinary ci.parentId ci.fulfillment) (l := t.coinInputs)
      (fun x _ ⟨ps, e⟩ => by simp only [e]; rfl) (fun x hx ho => legacyInputBinary_fits (h1.2 x hx).1 (h1.2 x hx).2 ho) hc hf
    have h0 := (within_siaLen h1.1).1
    unfold Tx.binaryEncode; simp only
    rw [if_pos hl]
    unfold TxV1.binaryData
    rw [if_pos hl]
    simp only [seqOut, Out.andThen, Out.ok, h0, Out.toRes, hi]
  exact ⟨key, key⟩

/-- A legacy transaction: it spends a single-signature output and pays into an address and a multi-signature condition. -/
def legacyPay : TxV1 := {
  legacy := true
  coinInputs := [⟨⟨List.replicate 32 1⟩, .single key1 none, none⟩]
  coinOutputs := [⟨⟨some ⟨false, 5, 0⟩⟩, .unlockHash (addrOf key2), ⟨[]⟩⟩,
    ⟨⟨some ⟨false, 25, -9⟩⟩, .multiSig [addrOf key1, addrOf key2] 2, ⟨[]⟩⟩]
  minerFees := [⟨some ⟨false, 1, -1⟩⟩], data := [1, 2, 3] }

/-- It fits. -/
example : LegacyFits legacyPay := by
  refine ⟨rfl, ⟨by decide, ?_⟩, ⟨by decide, ?_⟩, ⟨by decide, fun _ h => nomatch h⟩, ⟨by decide, fun _ h => nomatch h⟩, ⟨by decide, by decide⟩, by decide,
    ?_, fun _ h => nomatch h⟩
  · intro ci h
    simp only [legacyPay, List.mem_cons, List.not_mem_nil, or_false] at h
    subst h
    exact ⟨by decide, by decide, fun _ h => nomatch h⟩
  · intro co h
    simp only [legacyPay, List.mem_cons, List.not_mem_nil, or_false] at h
    rcases h with rfl | rfl
    · exact ⟨by decide, show HashFits _ by decide⟩
    · exact ⟨by decide, by decide, by decide, by decide⟩
  · intro ci h
    simp only [legacyPay, List.mem_cons, List.not_mem_nil, or_false] at h
    subst h; trivial

/-- A legacy transaction whose second input is one of a multi-signature condition. -/
def legacyJoint : TxV1 := { legacyPay with coinInputs := legacyPay.coinInputs ++ [⟨⟨List.replicate 32 2⟩, .multi [⟨key1, ⟨List.replicate 64 3, false⟩⟩], none⟩] }

example : legacyJoint.legacy = true ∧ AllFit InputFits legacyJoint.coinInputs ∧ ∃ ci ∈ legacyJoint.coinInputs, ∃ ps, ci.fulfillment = .multi ps := by
  refine ⟨rfl, ⟨by decide, ?_⟩, _, .tail _ (.head _), _, rfl⟩
  intro ci h
  simp only [legacyJoint, legacyPay, List.cons_append, List.nil_append, List.mem_cons, List.not_mem_nil, or_false] at h
  rcases h with rfl | rfl
  · exact ⟨by decide, by decide, fun _ h => nomatch h⟩
  · exact ⟨by decide, by decide, by decide⟩

end TF.Props
