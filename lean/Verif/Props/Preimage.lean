import Verif.Lemmas.Agree
import Verif.Props.Signing
import Verif.Props.TxJson
/-!
# Properties C39, C41, C74, C75: what signatures and identifiers commit to, and comparing by identifier
-/
namespace TF.Props
open TF Spec

/-! ## C39, C75 -/

theorem agree_v1 (H : Bytes → Bytes) (L : IpLib) (ex : List Val) (t t' : TxV1) (h : Signable L (.v1 t)) (h' : Signable L (.v1 t')) :
    Agree (contents (.v1 t) = contents (.v1 t')) (t.sigInput H ex) (t'.sigInput H ex) := by
  obtain ⟨hl, h1, h2, h3, h4, h5⟩ := h
  obtain ⟨hl', h1', h2', h3', h4', h5'⟩ := h'
  simp only [TxV1.sigInput, hl, hl', Bool.false_eq_true, if_false]
  refine Agree.mono ((Agree.same _).cons <| (Agree.same _).cons <| (agree_idsSia h1 h1').cons <| (agree_outs h2 h2').cons <|
    (agree_idsSia h3 h3').cons <| (agree_siaSlice (key := staked) _ _ _ fun a ha b hb => agree_stakeSia (h4 a ha) (h4' b hb)).cons <|
    (agree_fees h5 h5').cons <| (agree_data _ _).cons Agree.nil) ?_
  rintro ⟨_, _, e1, e2, e3, e4, e5, e6, _⟩
  simp only [contents, e1, e2, e3, e4, e5, e6]

theorem agree_v128 (L : IpLib) (ex : List Val) (t t' : TxV128) (h : Signable L (.v128 t)) (h' : Signable L (.v128 t')) :
    Agree (contents (.v128 t) = contents (.v128 t')) (t.sigInput ex) (t'.sigInput ex) := by
  obtain ⟨h1, h2, h3⟩ := h
  obtain ⟨h1', h2', h3'⟩ := h'
  refine Agree.mono ((Agree.same _).cons <| (Agree.same _).cons <| (Agree.of (sd_fixed 8) h1 h1').cons <| (Agree.same _).cons <|
    (agree_condSia h2 h2').cons <| (agree_fees h3 h3').cons <| (agree_data _ _).cons Agree.nil) ?_
  rintro ⟨_, _, e1, _, e2, e3, e4, _⟩
  simp only [contents, e1, e2, e3, e4]

theorem agree_v129 (L : IpLib) (ex : List Val) (t t' : TxV129) (h : Signable L (.v129 t)) (h' : Signable L (.v129 t')) :
    Agree (contents (.v129 t) = contents (.v129 t')) (t.sigInput ex) (t'.sigInput ex) := by
  obtain ⟨h1, h2, h3⟩ := h
  obtain ⟨h1', h2', h3'⟩ := h'
  refine Agree.mono ((Agree.same _).cons <| (Agree.same _).cons <| (Agree.of (sd_fixed 8) h1 h1').cons <| (Agree.same _).cons <|
    (agree_outs h2 h2').cons <| (agree_fees h3 h3').cons <| (agree_data _ _).cons Agree.nil) ?_
  rintro ⟨_, _, e1, _, e2, e3, e4, _⟩
  simp only [contents, e1, e2, e3, e4]

theorem agree_v144 (L : IpLib) (hL : LawfulIp L) (ex : List Val) (t t' : TxV144) (h : Signable L (.v144 t)) (h' : Signable L (.v144 t')) :
    Agree (contents (.v144 t) = contents (.v144 t')) (t.sigInput ex) (t'.sigInput ex) := by
  obtain ⟨h1, h2, h3, h4, h5⟩ := h
  obtain ⟨h1', h2', h3', h4', h5'⟩ := h'
  refine Agree.mono ((Agree.same _).cons <| (Agree.same _).cons <| (Agree.same _).cons <|
    (agree_seq2Riv (agree_nets hL h1 h1') (agree_names _ _)).cons <| (agree_rivInt 1 _ _).cons <| (agree_idsRiv h2 h2').cons <|
    (agree_curRiv h3 h3').cons <| (agree_refund h4 h4').cons <| (agree_key h5 h5').cons Agree.nil) ?_
  rintro ⟨_, _, _, ⟨e1, e2⟩, e3, e4, e5, e6, e7, _⟩
  simp only [contents, e1, e2, e3, e4, e5, e6, e7]

theorem agree_v145 (L : IpLib) (hL : LawfulIp L) (ex : List Val) (t t' : TxV145) (h : Signable L (.v145 t)) (h' : Signable L (.v145 t')) :
    Agree (contents (.v145 t) = contents (.v145 t')) (t.sigInput ex) (t'.sigInput ex) := by
  obtain ⟨h0, h1, h2, h3, h4⟩ := h
  obtain ⟨h0', h1', h2', h3', h4'⟩ := h'
  refine Agree.mono ((Agree.same _).cons <| (Agree.same _).cons <| (agree_rivInt 4 _ _).cons <| (Agree.same _).cons <|
    (agree_seq2Riv (agree_nets hL h0 h0') (agree_nets hL h1 h1')).cons <| (agree_seq2Riv (agree_names _ _) (agree_names _ _)).cons <|
    (agree_rivInt 1 _ _).cons <| (agree_idsRiv h2 h2').cons <| (agree_curRiv h3 h3').cons <| (agree_refund h4 h4').cons Agree.nil) ?_
  rintro ⟨_, _, e0, _, ⟨e1, e2⟩, ⟨e3, e4⟩, e5, e6, e7, e8, _⟩
  simp only [contents, e0, e1, e2, e3, e4, e5, e6, e7, e8]

theorem agree_v146 (L : IpLib) (ex : List Val) (t t' : TxV146) (h : Signable L (.v146 t)) (h' : Signable L (.v146 t')) :
    Agree (contents (.v146 t) = contents (.v146 t')) (t.sigInput ex) (t'.sigInput ex) := by
  obtain ⟨h2, h3, h4⟩ := h
  obtain ⟨h2', h3', h4'⟩ := h'
  refine Agree.mono ((Agree.same _).cons <| (Agree.same _).cons <| (agree_rivInt 4 _ _).cons <| (agree_rivInt 4 _ _).cons <| (Agree.same _).cons <|
    (agree_names _ _).cons <| (agree_ins h2 h2').cons <| (agree_curRiv h3 h3').cons <| (agree_refund h4 h4').cons Agree.nil) ?_
  rintro ⟨_, _, e0, e1, _, e2, e3, e4, e5, _⟩
  simp only [contents, e0, e1, e2, e3, e4, e5]

theorem agree_v208 (L : IpLib) (ex : List Val) (t t' : TxV208) (h : Signable L (.v208 t)) (h' : Signable L (.v208 t')) :
    Agree (contents (.v208 t) = contents (.v208 t')) (t.sigInput ex) (t'.sigInput ex) := by
  obtain ⟨h0, h1, h2, h3, h4⟩ := h
  obtain ⟨h0', h1', h2', h3', h4'⟩ := h'
  refine Agree.mono ((Agree.same _).cons <| (Agree.same _).cons <| (agree_seq2Riv (a := erc20Val t.address) (a' := erc20Val t'.address)
    (Agree.of (sd_fixed 20) h0 h0') (agree_curRiv h1 h1')).cons <| (Agree.same _).cons <|
    (agree_idsRiv h2 h2').cons <| (agree_curRiv h3 h3').cons <| (agree_refund h4 h4').cons Agree.nil) ?_
  rintro ⟨_, _, ⟨e0, e1⟩, _, e2, e3, e4, _⟩
  simp only [contents, e0, e1, e2, e3, e4]

theorem agree_v209 (L : IpLib) (ex : List Val) (t t' : TxV209) (h : Signable L (.v209 t)) (h' : Signable L (.v209 t')) :
    Agree (contents (.v209 t) = contents (.v209 t')) (t.sigInput ex) (t'.sigInput ex) := by
  obtain ⟨h0, h1, h2, h3, h4⟩ := h
  obtain ⟨h0', h1', h2', h3', h4'⟩ := h'
  refine Agree.mono ((Agree.same _).cons <| (Agree.same _).cons <| (Agree.same _).cons <|
    (agree_seq2Sia (a := t.address.val) (a' := t'.address.val) (Agree.of sd_uh.1 h0 h0') (agree_curSia h1 h1')).cons <|
    (agree_seq1Sia (agree_curSia h2 h2')).cons <|
    (agree_seq2Sia (a := erc20Val t.blockId) (a' := erc20Val t'.blockId) (b := erc20Val t.txId) (b' := erc20Val t'.txId)
      (Agree.of (sd_fixed 32) h3 h3') (Agree.of (sd_fixed 32) h4 h4')).cons Agree.nil) ?_
  rintro ⟨_, _, _, ⟨e0, e1⟩, e2, ⟨e3, e4⟩, _⟩
  simp only [contents, e0, e1, e2, e3, e4]

theorem agree_v210 (L : IpLib) (ex : List Val) (t t' : TxV210) (h : Signable L (.v210 t)) (h' : Signable L (.v210 t')) :
    Agree (contents (.v210 t) = contents (.v210 t')) (t.sigInput ex) (t'.sigInput ex) := by
  obtain ⟨h1, h2, h3, h4⟩ := h
  obtain ⟨h1', h2', h3', h4'⟩ := h'
  refine Agree.mono ((Agree.same _).cons <| (Agree.same _).cons <| (agree_key h1 h1').cons <| (Agree.same _).cons <|
    (agree_ins h2 h2').cons <| (agree_seq2Riv (Agree.same _) (agree_curRiv h3 h3')).cons <| (agree_refund h4 h4').cons Agree.nil) ?_
  rintro ⟨_, _, e1, _, e2, ⟨_, e3⟩, e4, _⟩
  simp only [contents, e1, e2, e3, e4]

/-- **C39**. Version-1 transactions with the same signed bytes (for the same extra objects) spend the same outputs and pay the same
amounts under the same conditions, with the same fees and the same data. -/
theorem C39_signed_bytes_v1 (H : Bytes → Bytes) (L : IpLib) (ex : List Val) (t t' : TxV1) (h : Signable L (.v1 t)) (h' : Signable L (.v1 t'))
    (x : Bytes) (hx : (Tx.v1 t).sigInput H ex = .ok x) (hx' : (Tx.v1 t').sigInput H ex = .ok x) :
    t.coinInputs.map (·.parentId) = t'.coinInputs.map (·.parentId) ∧
    t.coinOutputs.map (fun o => (amount o.value, o.condition)) = t'.coinOutputs.map (fun o => (amount o.value, o.condition)) ∧
    t.stakeInputs.map (·.parentId) = t'.stakeInputs.map (·.parentId) ∧
    t.stakeOutputs.map (fun o => (o.value.value, o.condition)) = t'.stakeOutputs.map (fun o => (o.value.value, o.condition)) ∧
    t.minerFees.map amount = t'.minerFees.map amount ∧ t.data = t'.data := by
  have e := (agree_v1 H L ex t t' h h').done hx hx'
  simp only [contents, Contents.payment.injEq] at e
  exact e

example : Signable toyIp fullV1 ∧ ∃ x, fullV1.sigInput toyHash [.int 0] = .ok x := by
  refine ⟨⟨rfl, by unfold KnownIds; decide, ?_, by unfold KnownIds; decide, by simp, ?_⟩, _, rfl⟩
  · intro o ho
    rw [List.mem_singleton.1 ho]
    exact ⟨⟨rfl, by decide⟩, rfl⟩
  · intro x hx
    rw [List.mem_singleton.1 hx]
    exact ⟨rfl, by decide⟩

/-- The signed bytes of a transaction that is not a legacy one start with its version. -/
theorem sigInput_head (H : Bytes → Bytes) (L : IpLib) (ex : List Val) (t : Tx) (h : Signable L t) (x : Bytes) (hx : t.sigInput H ex = .ok x) :
    x.head? = some (UInt8.ofNat t.version) := by
  have key : ∀ (b : UInt8) (os : List Out), (seqOut (Out.ok [b] :: os)).toRes = .ok x → x.head? = some b := by
    intro b os hh
    obtain ⟨u, v, hu, hv, rfl⟩ := andThen_ok.1 hh
    simp only [Out.ok_toRes, Except.ok.injEq] at hu
    subst hu; rfl
  cases t with
  | v1 t => simp only [Tx.sigInput, TxV1.sigInput, h.1, Bool.false_eq_true, if_false] at hx; exact key _ _ hx
  | v128 t => exact key _ _ hx
  | v129 t => exact key _ _ hx
  | v144 t => exact key 144 _ hx
  | v145 t => exact key 145 _ hx
  | v146 t => exact key 146 _ hx
  | v208 t => exact key 208 _ hx
  | v209 t => exact key _ _ hx
  | v210 t => exact key 210 _ hx

/-- **C75**. For transactions of any version: the signed bytes (for the same extra objects) determine the version and the whole contents,
so that a signature for one transaction is never one for a different transaction. -/
theorem C75_signed_bytes_determine_contents (H : Bytes → Bytes) (L : IpLib) (hL : LawfulIp L) (ex : List Val) (t t' : Tx)
    (h : Signable L t) (h' : Signable L t') (x : Bytes) (hx : t.sigInput H ex = .ok x) (hx' : t'.sigInput H ex = .ok x) :
    t.version = t'.version ∧ contents t = contents t' := by
  have hv : t.version = t'.version := by
    have e := (sigInput_head H L ex t h x hx).symm.trans (sigInput_head H L ex t' h' x hx')
    revert e
    cases t <;> cases t' <;> simp only [Tx.version] <;> decide
  refine ⟨hv, ?_⟩
  cases t <;> cases t' <;> first | (simp [Tx.version] at hv; done) | skip
  · exact (agree_v1 H L ex _ _ h h').done hx hx'
  · exact (agree_v128 L ex _ _ h h').done hx hx'
  · exact (agree_v129 L ex _ _ h h').done hx hx'
  · exact (agree_v144 L hL ex _ _ h h').done hx hx'
  · exact (agree_v145 L hL ex _ _ h h').done hx hx'
  · exact (agree_v146 L ex _ _ h h').done hx hx'
  · exact (agree_v208 L ex _ _ h h').done hx hx'
  · exact (agree_v209 L ex _ _ h h').done hx hx'
  · exact (agree_v210 L ex _ _ h h').done hx hx'

example : Signable toyIp (.v145 fullV145) ∧ ∃ x, (Tx.v145 fullV145).sigInput toyHash [.int 0] = .ok x := by
  refine ⟨⟨by simp [fullV145], by simp [fullV145], by unfold KnownIds; decide, ⟨rfl, by decide⟩, by simp [fullV145]⟩, _, rfl⟩

/-! ## C41 -/

theorem outputId_split (H : Bytes → Bytes) (t : Tx) (spec : Bytes) (i : Int) (x : Bytes) (h : t.outputIdInput H spec i = .ok x) :
    ∃ d, t.idInput H = .ok d ∧ 0 ≤ i ∧ i < 2^64 ∧ x = spec ++ d ++ toBytesLE 8 i.toNat := by
  unfold Tx.outputIdInput at h
  cases hd : t.idInput H with
  | error e => simp [hd, bind, Except.bind] at h
  | ok d =>
    simp only [hd, bind, Except.bind] at h
    obtain ⟨a, b, ha, hb, rfl⟩ := andThen_ok.1 h
    obtain ⟨b, c, hb2, hc, rfl⟩ := andThen_ok.1 hb
    obtain ⟨c, e, hc2, he, rfl⟩ := andThen_ok.1 hc
    obtain ⟨h0, h1, rfl⟩ := siaInt_toRes hc2
    simp only [seqOut, Out.ok_toRes, Except.ok.injEq] at ha hb2 he
    subst ha hb2 he
    exact ⟨_, rfl, h0, h1, by simp⟩

/-- **C41**. Within one transaction the byte strings hashed into identifiers are pairwise different: those of two coin outputs with
different indices, those of two block stake outputs, that of a coin output and that of a block stake output (with any indices), and each of
them differs from what the transaction id is made of. -/
theorem C41_output_ids_distinct (H : Bytes → Bytes) (t : Tx) (i j : Int) (x y : Bytes) :
    (t.coinOutputIdInput H i = .ok x → t.coinOutputIdInput H j = .ok y → i ≠ j → x ≠ y) ∧
    (t.stakeOutputIdInput H i = .ok x → t.stakeOutputIdInput H j = .ok y → i ≠ j → x ≠ y) ∧
    (t.coinOutputIdInput H i = .ok x → t.stakeOutputIdInput H j = .ok y → x ≠ y) ∧
    (t.coinOutputIdInput H i = .ok x → t.idInput H ≠ .ok x) ∧
    (t.stakeOutputIdInput H i = .ok x → t.idInput H ≠ .ok x) := by
  have hc : ∀ {i x}, t.coinOutputIdInput H i = .ok x → t.outputIdInput H t.coinSpec i = .ok x := by
    intro i x h; unfold Tx.coinOutputIdInput at h; split at h
    · cases h
    · exact h
  have hs : ∀ {i x}, t.stakeOutputIdInput H i = .ok x → t.outputIdInput H t.stakeSpec i = .ok x := by
    intro i x h; unfold Tx.stakeOutputIdInput at h; split at h
    · cases h
    · exact h
  have same : ∀ spec, t.outputIdInput H spec i = .ok x → t.outputIdInput H spec j = .ok y → i ≠ j → x ≠ y := by
    intro spec h h' hne e
    obtain ⟨d, hd, h0, h1, rfl⟩ := outputId_split H t spec i x h
    obtain ⟨d', hd', h0', h1', rfl⟩ := outputId_split H t spec j y h'
    rw [hd] at hd'; cases hd'
    have := toBytesLE_inj (n := 8) (v := i.toNat) (w := j.toNat) (by omega) (by omega) (List.append_cancel_left e)
    omega
  have tx : ∀ spec, spec ≠ [] → t.outputIdInput H spec i = .ok x → t.idInput H ≠ .ok x := by
    intro spec hne h e
    obtain ⟨d, hd, h0, h1, rfl⟩ := outputId_split H t spec i x h
    rw [hd] at e
    have := congrArg List.length (Except.ok.inj e)
    simp at this
    omega
  have cs : t.coinSpec ≠ [] ∧ t.stakeSpec ≠ [] ∧ t.coinSpec.length = t.stakeSpec.length ∧ t.coinSpec ≠ t.stakeSpec := by
    have l1 : utf8 "coin output\x00\x00\x00\x00".toList ≠ [] ∧ utf8 "blstake output\x00".toList ≠ [] ∧
      (utf8 "coin output\x00\x00\x00\x00".toList).length = (utf8 "blstake output\x00".toList).length ∧
      utf8 "coin output\x00\x00\x00\x00".toList ≠ utf8 "blstake output\x00".toList := by decide +kernel
    have l2 : utf8 "coin output\x00\x00\x00\x00\x00".toList ≠ [] ∧ utf8 "blstake output\x00\x00".toList ≠ [] ∧
      (utf8 "coin output\x00\x00\x00\x00\x00".toList).length = (utf8 "blstake output\x00\x00".toList).length ∧
      utf8 "coin output\x00\x00\x00\x00\x00".toList ≠ utf8 "blstake output\x00\x00".toList := by decide +kernel
    cases t with
    | v1 t => 
      simp only [Tx.coinSpec, Tx.stakeSpec]
      cases t.legacy
      · exact l2
      · exact l1
    | _ => exact l2
  refine ⟨fun h h' => same _ (hc h) (hc h'), fun h h' => same _ (hs h) (hs h'), ?_, fun h => tx _ cs.1 (hc h), fun h => tx _ cs.2.1 (hs h)⟩
  intro h h' e
  obtain ⟨d, hd, -, -, rfl⟩ := outputId_split H t _ i x (hc h)
  obtain ⟨d', hd', -, -, rfl⟩ := outputId_split H t _ j y (hs h')
  rw [List.append_assoc, List.append_assoc] at e
  exact cs.2.2.2 (List.append_inj e cs.2.2.1).1

/-- **C41** (range, what holds). A coin output id is refused with `ValueError` exactly for the indices without coin output
(if the transaction can be encoded at all and has fewer than 2^64 outputs). -/
theorem C41_coin_index_partial (H : Bytes → Bytes) (t : Tx) (d : Bytes) (hd : t.idInput H = .ok d) (hn : t.coinOutputs.length < 2^64) (i : Int) :
    (0 ≤ i ∧ i < t.coinOutputs.length → ∃ x, t.coinOutputIdInput H i = .ok x) ∧
    (¬ (0 ≤ i ∧ i < t.coinOutputs.length) → t.coinOutputIdInput H i = .error .valueError) := by
  unfold Tx.coinOutputIdInput
  constructor
  · intro h
    rw [if_neg (by omega)]
    unfold Tx.outputIdInput
    simp only [hd, bind, Except.bind, siaInt_ok h.1 (show i < 2^64 by omega)]
    exact ⟨_, rfl⟩
  · intro h
    rw [if_pos (by omega)]

/-- **C41** (finding). The index of a block stake output is checked against the number of coin outputs: a transaction with one block
stake output and no coin output cannot name it, and one with a coin output only gets an id for a block stake output it does not have. -/
theorem C41_blockstake_index_false :
    (∃ t : Tx, (t.stakeOutputs).length = 1 ∧ (t.idInput toyHash).toOption.isSome ∧ t.stakeOutputIdInput toyHash 0 = .error .valueError) ∧
    (∃ t : Tx, t.stakeOutputs = [] ∧ (t.stakeOutputIdInput toyHash 0).toOption.isSome) := by
  refine ⟨⟨.v1 { stakeOutputs := [⟨⟨5⟩, .nil, ⟨[]⟩⟩] }, by decide +kernel⟩, ⟨fullV1, by decide +kernel⟩⟩

example : (fullV1.coinOutputIdInput toyHash 0).toOption.isSome ∧ fullV1.coinOutputIdInput toyHash 1 = .error .valueError := by decide +kernel

/-! ## C74 -/

/-- **C74** (what holds). Transactions that have ids can be compared; equal ids make them equal, and where Python's string hash tells
the two ids apart, they are equal only then. -/
theorem C74_compare_partial (hashStr : Str → Int) (a b : Hash) (ha : a.value.length = 32) (hb : b.value.length = 32) :
    (a = b → txEq hashStr (some a) (some b) = .ok true) ∧
    ((hashStr a.str = hashStr b.str → a.str = b.str) → txEq hashStr (some a) (some b) = .ok (decide (a = b))) := by
  have inj : a.str = b.str → a = b := by
    intro e
    have h1 := C12_hash_text_roundtrip_partial a ha
    have h2 := C12_hash_text_roundtrip_partial b hb
    rw [e, h2] at h1
    exact (Except.ok.inj h1).symm
  constructor
  · rintro rfl
    simp [txEq, txHash, bind, Except.bind, pure, Except.pure]
  · intro h
    simp only [txEq, txHash, bind, Except.bind, pure, Except.pure, Except.ok.injEq]
    by_cases e : a = b
    · simp [e]
    · have : hashStr a.str ≠ hashStr b.str := fun x => e (inj (h x))
      simp [e, this]

example : (⟨List.replicate 32 1⟩ : Hash) ≠ ⟨List.replicate 32 2⟩ ∧
    txEq (fun s => s.foldl (fun n c => 31 * n + c.toNat) 0) (some ⟨List.replicate 32 1⟩) (some ⟨List.replicate 32 2⟩) = .ok false := by decide +kernel

/-- **C74** (finding). A transaction without id - one just built, before submission - cannot be compared or hashed: `NameError`. -/
theorem C74_compare_false (hashStr : Str → Int) (b : Option Hash) :
    txHash hashStr none = .error .nameError ∧ txEq hashStr none b = .error .nameError ∧
    ∀ a : Hash, txEq hashStr (some a) none = .error .nameError := ⟨rfl, rfl, fun _ => rfl⟩

/-- Two different transactions in JSON, for the next theorem: a payment of nothing with a fee of one and of two. -/
def feeOf (n : Int) : Json := .obj [("version", .int 1), ("data", .obj [("minerfees", .arr [.str (Nat.repr n.toNat).toList])])]

/-- **C74** (finding). Transactions read from JSON without telling their id all compare equal, whatever is in them: the id is set to the empty
hash, and only ids are compared. -/
theorem C74_read_false (L : IpLib) (H : Bytes → Bytes) (hashStr : Str → Int) :
    (∀ (j j' : Json) (t t' : Tx) (i i' : Option Hash), readTx L H j .none = .ok (t, i) → readTx L H j' .none = .ok (t', i') →
      txEq hashStr i i' = .ok true) ∧
    ¬ ∀ (j j' : Json) (t t' : Tx) (i i' : Option Hash), readTx L H j .none = .ok (t, i) → readTx L H j' .none = .ok (t', i') →
      txEq hashStr i i' = .ok true → t.minerFees = t'.minerFees := by
  have all : ∀ (j : Json) (t : Tx) (i : Option Hash), readTx L H j .none = .ok (t, i) → i = some ⟨[]⟩ := by
    intro j t i h
    simp only [readTx, bind, Except.bind, pure, Except.pure] at h
    cases e : Tx.fromJson L H j with
    | error x => rw [e] at h; cases h
    | ok u =>
      rw [e] at h
      have : (Except.ok (u, some ⟨[]⟩) : Res (Tx × Option Hash)) = .ok (t, i) := h
      exact (Prod.mk.inj (Except.ok.inj this)).2.symm
  have eqs : txEq hashStr (some ⟨[]⟩) (some ⟨[]⟩) = .ok true := by simp [txEq, txHash, bind, Except.bind, pure, Except.pure]
  refine ⟨fun j j' t t' i i' h h' => by rw [all j t i h, all j' t' i' h']; exact eqs, fun hall => ?_⟩
  have h1 : readTx L H (feeOf 1) .none = .ok (.v1 { minerFees := [⟨some ⟨false, 1, -9⟩⟩] }, some ⟨[]⟩) := rfl
  have h2 : readTx L H (feeOf 2) .none = .ok (.v1 { minerFees := [⟨some ⟨false, 2, -9⟩⟩] }, some ⟨[]⟩) := rfl
  have := hall _ _ _ _ _ _ h1 h2 eqs
  simp [Tx.minerFees] at this

/-- **C74** (what holds for transactions read from JSON). Read with their ids, two transactions are equal exactly when the ids are, given that
Python's string hash tells them apart; and a transaction shows the id it was read with. -/
theorem C74_read_partial (L : IpLib) (H : Bytes → Bytes) (hashStr : Str → Int) (j j' : Json) (t t' : Tx) (i i' : Option Hash) (a b : Bytes)
    (ha : a.length = 32) (hb : b.length = 32) (h : readTx L H j (.str (toHex a)) = .ok (t, i)) (h' : readTx L H j' (.str (toHex b)) = .ok (t', i')) :
    txIdText i = toHex a ∧
    ((hashStr (toHex a) = hashStr (toHex b) → toHex a = toHex b) → txEq hashStr i i' = .ok (decide (a = b))) := by
  have get : ∀ (j : Json) (t : Tx) (i : Option Hash) (a : Bytes), a.length = 32 → readTx L H j (.str (toHex a)) = .ok (t, i) → i = some ⟨a⟩ := by
    intro j t i a ha h
    simp only [readTx, bind, Except.bind, pure, Except.pure] at h
    cases e : Tx.fromJson L H j with
    | error x => rw [e] at h; cases h
    | ok u =>
      rw [e, hash_new_hex ha] at h
      exact (Prod.mk.inj (Except.ok.inj h)).2.symm
  have text : ∀ a : Bytes, a.length = 32 → (⟨a⟩ : Hash).str = toHex a := by
    intro a ha
    unfold Hash.str
    rw [if_neg]
    cases a with
    | nil => simp at ha
    | cons x xs => simp [toHex]
  rw [get j t i a ha h, get j' t' i' b hb h']
  refine ⟨text a ha, fun hh => ?_⟩
  rw [(C74_compare_partial hashStr ⟨a⟩ ⟨b⟩ ha hb).2 (by rw [text a ha, text b hb]; exact hh)]
  simp

example (L : IpLib) (H : Bytes → Bytes) : ∃ t i, readTx L H (feeOf 1) (.str (toHex (List.replicate 32 7))) = .ok (t, i) :=
  ⟨_, some ⟨List.replicate 32 7⟩, by rw [readTx, hash_new_hex (by simp)]; rfl⟩

end TF.Props
