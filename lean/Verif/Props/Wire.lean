import Verif.Lemmas.Wire
import Verif.Props.Encodable
/-! # C111: transactions have the network's wire format -/
namespace TF.Props
open TF Spec

/-! ## Parts that occur in several versions -/

theorem good_fee {l : List Currency} {c : Option Currency} (h : ∀ x ∈ c.toList ++ l, GoodCurrency x) : GoodCurrency (feeOr c) := by
  cases c with
  | none => exact ⟨rfl, by decide⟩
  | some x => exact h x (by simp)
theorem writes_fee {c : Option Currency} (h : GoodCurrency (feeOr c)) : (addIn .riv (feeOr c).toVal).Writes (Wire.fee c) := writes_amount h .riv
theorem writes_ownKey (k : Option PublicKey) : (addIn .riv (keyOr k).val).Writes (Wire.ownKey k) := writes_key _ .riv
theorem writes_whole {s : Option Signature} (h : ∀ x ∈ s.toList, x.asArray = true) : (addIn .riv (sigOr s).val).Writes (Wire.sigBytes s) := by
  show (rivAdd (.obj (sigOr s).sia (sigOr s).riv)).Writes _
  rw [rivAdd_obj]
  unfold Signature.riv
  cases s with
  | none => exact writes_ok _
  | some x =>
    rw [if_pos (by exact h x (by simp))]; exact writes_ok _
theorem writes_plain {o : Option CoinOutput} (h : ∀ x ∈ o.toList, GoodCurrency x.value) : (refundOnly o).Writes (Wire.plain o) := by
  cases o with
  | none => exact writes_ok _
  | some o => exact writes_coinOutput (h o (by simp)) .riv
theorem writes_flagged {o : Option CoinOutput} (h : ∀ x ∈ o.toList, GoodCurrency x.value) : (refundRiv o).Writes (Wire.flagged o) := by
  cases o with
  | none => exact writes_byte rfl
  | some o => exact writes_andThen (x := [_]) (writes_byte rfl) (writes_coinOutput (h o (by simp)) .riv)
theorem writes_number (i : Option Int) : (rivInt32 (i.getD 0)).Writes (Wire.number i) := writes_rivInt 4 _
theorem writes_two {a b : Nat} (h : a ≤ 15) : (packedCounts a b).Writes [Wire.two a b] := by
  refine writes_byte ?_
  rw [Int.toNat_natCast, or_shl a b 4 (by omega)]
  unfold Wire.two; congr 1; omega
theorem flags_eq : ∀ m : Fin 25, ∀ a b c : Bool,
    (let f := m.val; let f := if a then f ||| 32 else f; let f := if b then f ||| 64 else f; if c then f ||| 128 else f) =
      m.val + (if a then 32 else 0) + (if b then 64 else 0) + (if c then 128 else 0) := by decide
theorem writes_months (m : Int) (a b c : Bool) : (monthsAndFlags m a b c).Writes [Wire.months m a b c] := by
  unfold monthsAndFlags
  split
  · exact writes_raise _ _
  · refine writes_byte ?_
    rw [Int.toNat_natCast]
    unfold Wire.months; congr 1
    exact flags_eq ⟨m.toNat, by omega⟩ a b c
theorem writes_nets (l : List NetAddr) : (rivAddSeq (l.map NetAddr.val)).Writes (l.flatMap Wire.netAddress) := writes_map (F := .riv) fun a _ => writes_net a
theorem writes_names {l : List BotName} (h : ∀ n ∈ l, MadeName n) : (rivAddSeq (l.map BotName.val)).Writes (l.flatMap Wire.name) :=
  writes_map (F := .riv) fun n hn => writes_name (h n hn)
theorem writes_changes {α : Type} {f : α → Val} {g : α → Bytes} {add rem : List α} (ha : add.length ≤ 15)
    (h1 : (rivAddSeq (add.map f)).Writes (add.flatMap g)) (h2 : (rivAddSeq (rem.map f)).Writes (rem.flatMap g)) :
    (if !add.isEmpty || !rem.isEmpty then seqOut [packedCounts add.length rem.length, rivAddSeq (add.map f), rivAddSeq (rem.map f)] else .ok [] : Out).Writes
      (Wire.changes g add rem) := by
  unfold Wire.changes
  by_cases h : add = [] ∧ rem = []
  · obtain ⟨rfl, rfl⟩ := h; exact writes_ok _
  · rw [if_neg h, if_pos (by cases add <;> cases rem <;> simp_all)]
    exact writes_eq (writes_seqCons (writes_two ha) (writes_seqCons h1 (writes_seqCons h2 writes_seqNil))) (by simp)
theorem writes_inputs {l : List CoinInput} (h : ∀ ci ∈ l, Wire.Framed ci.fulfillment) : (addIn .riv (.seq (l.map CoinInput.val))).Writes (Wire.inputs (some l)) :=
  writes_list fun ci hc => writes_coinInput (h ci hc) .riv
theorem writes_insVal {l : Option (List CoinInput)} (h : ∀ ci ∈ l.getD [], Wire.Framed ci.fulfillment) : (addIn .riv (insVal l)).Writes (Wire.inputs l) := by
  cases l with
  | none => show (rivAdd .none).Writes _; rw [rivAdd]; exact writes_raise _ _
  | some l => exact writes_inputs h
theorem writes_idsSia (l : List Hash) : (idsSia l).Writes (Wire.ids l) :=
  writes_andThen (writes_siaInt _) (writes_map (F := .sia) fun h _ => writes_hash h .sia)
theorem writes_idsRiv (l : List Hash) : (idsRiv l).Writes (Wire.ids l) :=
  writes_andThen (writes_rivInt 8 _) (writes_map (F := .riv) fun h _ => writes_hash h .riv)
theorem writes_insIds (l : Option (List CoinInput)) : (insOrRaise l fun l => idsRiv (l.map (·.parentId))).Writes (Wire.spends (l.getD [])) := by
  cases l with
  | none => exact writes_raise _ _
  | some l => exact writes_idsRiv _
theorem writes_tenTft : (addIn .riv registrationFee.toVal).Writes Wire.tenTft := by
  have h := writes_amount (c := registrationFee) ⟨rfl, by decide⟩ .riv
  have e : Spec.amount registrationFee = 10 * 10 ^ 9 := by decide
  simp only [Wire.amount, e] at h
  exact h

theorem formed_inputs {t : Tx} (ht : Wire.Formed t) : ∀ ci ∈ t.coinInputs.getD [], Wire.Framed ci.fulfillment := fun ci hc =>
  ht.fulfillments _ (List.mem_append_left _ (List.mem_append_left _ (List.mem_map.2 ⟨ci, hc, rfl⟩)))

/-! ## The contents -/

theorem writes_body (H : Bytes → Bytes) {t : Tx} (ht : Wire.Formed t) (hl : ∀ v, t = .v1 v → v.legacy = false) : (t.binaryData H).Writes (Wire.body t) := by
  have hin := formed_inputs ht
  have ha := ht.amounts
  have hn := ht.names
  have hw := ht.wholes
  have hc := ht.counts
  cases t with
  | v1 t =>
    show (t.binaryData H).Writes _
    unfold TxV1.binaryData
    rw [if_neg (by rw [hl t rfl]; simp)]
    exact writes_eq (writes_cons (F := .sia) (writes_list fun ci hc => writes_coinInput (hin ci hc) .sia) <|
      writes_cons (writes_list fun co hc => writes_coinOutput (ha _ (List.mem_append_left _ (List.mem_map.2 ⟨co, hc, rfl⟩))) .sia) <|
      writes_cons (writes_list fun ci hc => writes_stakeInput (ht.fulfillments _
        (List.mem_append_left _ (List.mem_append_right _ (List.mem_map.2 ⟨ci, hc, rfl⟩)))) .sia) <|
      writes_cons (writes_list fun co _ => writes_stakeOutput co .sia) <|
      writes_cons (writes_list fun c hc => writes_amount (ha c (List.mem_append_right _ hc)) .sia) <|
      writes_cons (writes_data t.data) (writes_nil .sia)) (by simp [Wire.body])
  | v128 t =>
    have hf : Wire.Framed (t.mintFulfillment.getD (.single .default none)) := by
      cases hm : t.mintFulfillment with
      | none => exact fun _ h => nomatch h
      | some f => exact ht.fulfillments f (List.mem_append_right _ (by show f ∈ t.mintFulfillment.toList; simp [hm]))
    exact writes_eq (writes_seqCons (writes_ok _) <| writes_seqCons (writes_cons (F := .sia) (writes_fulfillment hf .sia) <|
      writes_cons (writes_condition _ .sia) <| writes_cons (writes_list fun c hc => writes_amount (ha c hc) .sia) <|
      writes_cons (writes_data t.data) (writes_nil .sia)) writes_seqNil) (by simp [Wire.body, PublicKey.default])
  | v129 t =>
    have hf : Wire.Framed (t.mintFulfillment.getD (.single .default none)) := by
      cases hm : t.mintFulfillment with
      | none => exact fun _ h => nomatch h
      | some f => exact ht.fulfillments f (List.mem_append_right _ (by show f ∈ t.mintFulfillment.toList; simp [hm]))
    exact writes_eq (writes_seqCons (writes_ok _) <| writes_seqCons (writes_cons (F := .sia) (writes_fulfillment hf .sia) <|
      writes_cons (writes_list fun co hc => writes_coinOutput (ha _ (List.mem_append_left _ (List.mem_map.2 ⟨co, hc, rfl⟩))) .sia) <|
      writes_cons (writes_list fun c hc => writes_amount (ha c (List.mem_append_right _ hc)) .sia) <|
      writes_cons (writes_data t.data) (writes_nil .sia)) writes_seqNil) (by simp [Wire.body, PublicKey.default])
  | v144 t =>
    have hf := good_fee ha
    have hr : ∀ x ∈ t.refund.toList, GoodCurrency x.value := fun x hx => ha _ (List.mem_append_right _ (List.mem_map.2 ⟨x, hx, rfl⟩))
    exact writes_eq (writes_seqCons (writes_months _ _ _ _) <| writes_seqCons (writes_two (hc _ (by simp [Wire.counts]))) <|
      writes_seqCons (writes_nets _) <| writes_seqCons (writes_names hn) <|
      writes_seqCons (writes_cons (F := .riv) (writes_fee hf) (writes_cons (writes_inputs hin) (writes_nil .riv))) <|
      writes_seqCons (writes_plain hr) <|
      writes_seqCons (writes_cons (F := .riv) (writes_ownKey _) (writes_cons (writes_whole hw) (writes_nil .riv))) writes_seqNil) (by simp [Wire.body])
  | v145 t =>
    have hf := good_fee ha
    have hr : ∀ x ∈ t.refund.toList, GoodCurrency x.value := fun x hx => ha _ (List.mem_append_right _ (List.mem_map.2 ⟨x, hx, rfl⟩))
    have e1 : (!t.addrsAdd.isEmpty || !t.addrsRemove.isEmpty) = !(t.addrsAdd ++ t.addrsRemove).isEmpty := by
      cases t.addrsAdd <;> simp
    have e2 : (!t.namesAdd.isEmpty || !t.namesRemove.isEmpty) = !(t.namesAdd ++ t.namesRemove).isEmpty := by
      cases t.namesAdd <;> simp
    refine writes_eq (writes_seqCons (writes_number _) <| writes_seqCons (writes_months _ _ _ _) <|
      writes_seqCons (writes_changes (hc _ (by simp [Wire.counts])) (writes_nets _) (writes_nets _)) <|
      writes_seqCons (writes_changes (hc _ (by simp [Wire.counts])) (writes_names fun n h => hn n (List.mem_append_left _ h))
        (writes_names fun n h => hn n (List.mem_append_right _ h))) <|
      writes_seqCons (writes_cons (F := .riv) (writes_fee hf) (writes_cons (writes_inputs hin) (writes_nil .riv))) <|
      writes_seqCons (writes_plain hr) <| writes_seqCons (writes_whole hw) writes_seqNil) ?_
    rw [e1, e2]; simp [Wire.body]
  | v146 t =>
    have hf := good_fee ha
    have hr : ∀ x ∈ t.refund.toList, GoodCurrency x.value := fun x hx => ha _ (List.mem_append_right _ (List.mem_map.2 ⟨x, hx, rfl⟩))
    have hc := hc t.names.length (by simp [Wire.counts])
    have h2 : (rivInt8 (((if t.refund.isSome then t.names.length ||| 16 else t.names.length) : Nat) : Int)).Writes
        [Wire.two t.names.length (if t.refund.isSome then 1 else 0)] := by
      refine writes_byte ?_
      rw [Int.toNat_natCast]
      unfold Wire.two
      split
      · rw [show 16 = 1 <<< 4 from rfl, or_shl _ 1 4 (by omega)]; rfl
      · rfl
    exact writes_eq (writes_seqCons (writes_number _) <| writes_seqCons (writes_whole fun x h => hw x (List.mem_append_left _ h)) <|
      writes_seqCons (writes_number _) <| writes_seqCons (writes_whole fun x h => hw x (List.mem_append_right _ h)) <|
      writes_seqCons h2 <| writes_seqCons (writes_names hn) <|
      writes_seqCons (writes_cons (F := .riv) (writes_fee hf) (writes_cons (writes_insVal hin) (writes_nil .riv))) <|
      writes_seqCons (writes_plain hr) writes_seqNil) (by simp [Wire.body])
  | v208 t =>
    have hf : GoodCurrency (feeOr t.fee) := good_fee fun x hx => ha x (List.mem_cons_of_mem _ hx)
    have hr : ∀ x ∈ t.refund.toList, GoodCurrency x.value := fun x hx => ha _ (List.mem_append_right _ (List.mem_map.2 ⟨x, hx, rfl⟩))
    exact writes_eq (writes_seqCons (writes_cons (F := .riv) (writes_raw t.address .riv) <|
      writes_cons (writes_amount (ha _ (by simp [Wire.amounts])) .riv) <| writes_cons (writes_fee hf) <| writes_cons (writes_inputs hin) (writes_nil .riv)) <|
      writes_seqCons (writes_flagged hr) writes_seqNil) (by simp [Wire.body])
  | v209 t =>
    have hf : GoodCurrency (feeOr t.fee) := good_fee (l := []) fun x hx => ha x (List.mem_cons_of_mem _ (by simpa using hx))
    exact writes_eq (writes_cons (F := .riv) (writes_address t.address .riv) <| writes_cons (writes_amount (ha _ (by simp [Wire.amounts])) .riv) <|
      writes_cons (writes_fee hf) <| writes_cons (writes_raw t.blockId .riv) <| writes_cons (writes_raw t.txId .riv) (writes_nil .riv)) (by simp [Wire.body])
  | v210 t =>
    have hf := good_fee ha
    have hr : ∀ x ∈ t.refund.toList, GoodCurrency x.value := fun x hx => ha _ (List.mem_append_right _ (List.mem_map.2 ⟨x, hx, rfl⟩))
    exact writes_eq (writes_seqCons (writes_cons (F := .riv) (writes_ownKey _) <| writes_cons (writes_whole hw) <| writes_cons writes_tenTft <|
      writes_cons (writes_fee hf) <| writes_cons (writes_insVal hin) (writes_nil .riv)) <|
      writes_seqCons (writes_flagged hr) writes_seqNil) (by simp [Wire.body])

/-- C111: what `binary_encode` returns for a transaction, of whatever version, is the network's layout of its contents. -/
theorem C111_encoding (H : Bytes → Bytes) (t : Tx) (ht : Wire.Formed t) (hl : ∀ v, t = .v1 v → v.legacy = false) (b : Bytes) (h : t.binaryEncode H = .ok b) :
    b = Wire.encoding t := by
  have hb := writes_body H ht hl
  cases t with
  | v1 v =>
    unfold Tx.binaryEncode at h; simp only at h
    rw [if_neg (by rw [hl v rfl]; simp)] at h
    exact (writes_andThen (writes_ok [1]) (writes_nested hb (writes_siaSlice _))).toRes h
  | _ => exact (writes_andThen (writes_ok [_]) hb).toRes h

/-- C111: what a transaction is identified by: the network's layout again, for all but version 1 with the label of the version in front. -/
theorem C111_identity (H : Bytes → Bytes) (t : Tx) (ht : Wire.Formed t) (hl : ∀ v, t = .v1 v → v.legacy = false) (b : Bytes) (h : t.idInput H = .ok b) :
    b = Wire.identity t := by
  have hb := writes_body H ht hl
  cases t with
  | v1 v => exact C111_encoding H _ ht hl b h
  | v128 v => exact (writes_andThen (x := Wire.label "minter defin tx") (writes_eq (writes_ok _) (by decide)) hb).toRes h
  | v129 v => exact (writes_andThen (x := Wire.label "coin mint tx") (writes_eq (writes_ok _) (by decide)) hb).toRes h
  | v144 v => exact (writes_andThen (x := Wire.label "bot register tx") (writes_eq (writes_ok _) (by decide)) hb).toRes h
  | v145 v => exact (writes_andThen (x := Wire.label "bot recupdate tx") (writes_eq (writes_ok _) (by decide)) hb).toRes h
  | v146 v => exact (writes_andThen (x := Wire.label "bot nametrans tx") (writes_eq (writes_ok _) (by decide)) hb).toRes h
  | v208 v => exact (writes_andThen (x := Wire.label "erc20 convert tx") (writes_eq (writes_ok _) (by decide)) hb).toRes h
  | v209 v => exact (writes_andThen (x := Wire.label "erc20 coingen tx") (writes_eq (writes_ok _) (by decide)) hb).toRes h
  | v210 v => exact (writes_andThen (x := Wire.label "erc20 addrreg tx") (writes_eq (writes_ok _) (by decide)) hb).toRes h

/-- C111: the id of a coin output is the digest of a label, what the transaction is identified by, and the index of the output. -/
theorem C111_coin_output_id (H : Bytes → Bytes) (t : Tx) (ht : Wire.Formed t) (hl : ∀ v, t = .v1 v → v.legacy = false) (i : Nat) (b : Bytes)
    (h : t.coinOutputIdInput H i = .ok b) : i < t.coinOutputs.length ∧ b = Wire.coinOutputId t i := by
  unfold Tx.coinOutputIdInput at h
  split at h
  · cases h
  · rename_i hi
    refine ⟨by omega, ?_⟩
    unfold Tx.outputIdInput at h
    cases hid : t.idInput H with
    | error e => rw [hid] at h; cases h
    | ok x =>
      rw [hid] at h
      have hx := C111_identity H t ht hl x hid
      have hs : t.coinSpec = Wire.label "coin output" := by
        cases t with
        | v1 v => show (if v.legacy then _ else _) = _; rw [if_neg (by rw [hl v rfl]; simp)]; decide
        | _ => show utf8 "coin output\x00\x00\x00\x00\x00".toList = _; decide
      have := (writes_seqCons (writes_ok t.coinSpec) (writes_seqCons (writes_ok x) (writes_seqCons (writes_siaInt i) writes_seqNil))).toRes h
      rw [this, hx, hs]
      simp [Wire.coinOutputId]

/-! ## What is signed -/

theorem writes_label {b : Bytes} (s : String) (h : b = Wire.label s) : (Out.ok b).Writes (Wire.label s) := writes_eq (writes_ok b) h

theorem writes_signing (H : Bytes → Bytes) {t : Tx} (ht : Wire.Formed t) (hl : ∀ v, t = .v1 v → v.legacy = false) {ex : List Val} {x : Bytes}
    (hx : (addSeqIn (Wire.signingFormat t) ex).Writes x) {b : Bytes} (h : t.sigInput H ex = .ok b) : b = Wire.signing x t := by
  have ha := ht.amounts
  have hn := ht.names
  cases t with
  | v1 t =>
    refine Out.Writes.toRes (o := t.sigInput H ex) ?_ h
    unfold TxV1.sigInput
    rw [if_neg (by rw [hl t rfl]; simp)]
    exact writes_eq (writes_seqCons (writes_ok _) <| writes_seqCons hx <| writes_seqCons (writes_idsSia _) <|
      writes_seqCons (writes_siaList fun co hc => writes_coinOutput (ha _ (List.mem_append_left _ (List.mem_map.2 ⟨co, hc, rfl⟩))) .sia) <|
      writes_seqCons (writes_idsSia _) <| writes_seqCons (writes_siaList fun co _ => writes_stakeOutput co .sia) <|
      writes_seqCons (writes_siaList fun c hc => writes_amount (ha c (List.mem_append_right _ hc)) .sia) <|
      writes_seqCons (writes_data t.data) writes_seqNil) (by simp [Wire.signing, Wire.spends])
  | v128 t =>
    refine Out.Writes.toRes (o := t.sigInput ex) ?_ h
    exact writes_eq (writes_seqCons (writes_ok _) <| writes_seqCons (writes_label "minter defin tx" (by decide)) <| writes_seqCons (writes_ok _) <| writes_seqCons hx <|
      writes_seqCons (writes_condition _ .sia) <| writes_seqCons (writes_siaList fun c hc => writes_amount (ha c hc) .sia) <|
      writes_seqCons (writes_data t.data) writes_seqNil) (by simp [Wire.signing])
  | v129 t =>
    refine Out.Writes.toRes (o := t.sigInput ex) ?_ h
    exact writes_eq (writes_seqCons (writes_ok _) <| writes_seqCons (writes_label "coin mint tx" (by decide)) <| writes_seqCons (writes_ok _) <| writes_seqCons hx <|
      writes_seqCons (writes_siaList fun co hc => writes_coinOutput (ha _ (List.mem_append_left _ (List.mem_map.2 ⟨co, hc, rfl⟩))) .sia) <|
      writes_seqCons (writes_siaList fun c hc => writes_amount (ha c (List.mem_append_right _ hc)) .sia) <|
      writes_seqCons (writes_data t.data) writes_seqNil) (by simp [Wire.signing])
  | v144 t =>
    have hf := good_fee ha
    have hr : ∀ x ∈ t.refund.toList, GoodCurrency x.value := fun x hx => ha _ (List.mem_append_right _ (List.mem_map.2 ⟨x, hx, rfl⟩))
    refine Out.Writes.toRes (o := t.sigInput ex) ?_ h
    exact writes_eq (writes_seqCons (writes_byte (b := 144) rfl) <| writes_seqCons (writes_label "bot register tx" (by decide)) <| writes_seqCons hx <|
      writes_seqCons (writes_cons (F := .riv) (writes_list fun a _ => writes_net a)
        (writes_cons (writes_list fun n h => writes_name (hn n h)) (writes_nil .riv))) <|
      writes_seqCons (writes_rivInt 1 _) <| writes_seqCons (writes_idsRiv _) <| writes_seqCons (writes_fee hf) <| writes_seqCons (writes_flagged hr) <|
      writes_seqCons (writes_ownKey _) writes_seqNil) (by simp [Wire.signing, Wire.spends])
  | v145 t =>
    have hf := good_fee ha
    have hr : ∀ x ∈ t.refund.toList, GoodCurrency x.value := fun x hx => ha _ (List.mem_append_right _ (List.mem_map.2 ⟨x, hx, rfl⟩))
    refine Out.Writes.toRes (o := t.sigInput ex) ?_ h
    exact writes_eq (writes_seqCons (writes_byte (b := 145) rfl) <| writes_seqCons (writes_label "bot recupdate tx" (by decide)) <| writes_seqCons (writes_number _) <|
      writes_seqCons hx <|
      writes_seqCons (writes_cons (F := .riv) (writes_list fun a _ => writes_net a) (writes_cons (writes_list fun a _ => writes_net a) (writes_nil .riv))) <|
      writes_seqCons (writes_cons (F := .riv) (writes_list fun n h => writes_name (hn n (List.mem_append_left _ h)))
        (writes_cons (writes_list fun n h => writes_name (hn n (List.mem_append_right _ h))) (writes_nil .riv))) <|
      writes_seqCons (writes_rivInt 1 _) <| writes_seqCons (writes_idsRiv _) <| writes_seqCons (writes_fee hf) <| writes_seqCons (writes_flagged hr) writes_seqNil)
      (by simp [Wire.signing, Wire.spends])
  | v146 t =>
    have hf := good_fee ha
    have hr : ∀ x ∈ t.refund.toList, GoodCurrency x.value := fun x hx => ha _ (List.mem_append_right _ (List.mem_map.2 ⟨x, hx, rfl⟩))
    refine Out.Writes.toRes (o := t.sigInput ex) ?_ h
    exact writes_eq (writes_seqCons (writes_byte (b := 146) rfl) <| writes_seqCons (writes_label "bot nametrans tx" (by decide)) <| writes_seqCons (writes_number _) <|
      writes_seqCons (writes_number _) <| writes_seqCons hx <| writes_seqCons (writes_list (F := .riv) fun n h => writes_name (hn n h)) <|
      writes_seqCons (writes_insIds _) <| writes_seqCons (writes_fee hf) <| writes_seqCons (writes_flagged hr) writes_seqNil) (by simp [Wire.signing])
  | v208 t =>
    have hf : GoodCurrency (feeOr t.fee) := good_fee fun x hx => ha x (List.mem_cons_of_mem _ hx)
    have hr : ∀ x ∈ t.refund.toList, GoodCurrency x.value := fun x hx => ha _ (List.mem_append_right _ (List.mem_map.2 ⟨x, hx, rfl⟩))
    refine Out.Writes.toRes (o := t.sigInput ex) ?_ h
    exact writes_eq (writes_seqCons (writes_byte (b := 208) rfl) <| writes_seqCons (writes_label "erc20 convert tx" (by decide)) <|
      writes_seqCons (writes_cons (F := .riv) (writes_raw t.address .riv)
        (writes_cons (writes_amount (ha _ (by simp [Wire.amounts])) .riv) (writes_nil .riv))) <| writes_seqCons hx <|
      writes_seqCons (writes_idsRiv _) <| writes_seqCons (writes_fee hf) <| writes_seqCons (writes_flagged hr) writes_seqNil) (by simp [Wire.signing, Wire.spends])
  | v209 t =>
    have hf : GoodCurrency (feeOr t.fee) := good_fee (l := []) fun x hx => ha x (List.mem_cons_of_mem _ (by simpa using hx))
    refine Out.Writes.toRes (o := t.sigInput ex) ?_ h
    exact writes_eq (writes_seqCons (writes_ok _) <| writes_seqCons (writes_label "erc20 coingen tx" (by decide)) <| writes_seqCons hx <|
      writes_seqCons (writes_cons (F := .sia) (writes_address _ .sia) (writes_cons (writes_amount (ha _ (by simp [Wire.amounts])) .sia) (writes_nil .sia))) <|
      writes_seqCons (writes_cons (F := .sia) (writes_amount hf .sia) (writes_nil .sia)) <|
      writes_seqCons (writes_cons (F := .sia) (writes_raw _ .sia) (writes_cons (writes_raw _ .sia) (writes_nil .sia))) writes_seqNil)
      (by simp [Wire.signing, feeOr])
  | v210 t =>
    have hf := good_fee ha
    have hr : ∀ x ∈ t.refund.toList, GoodCurrency x.value := fun x hx => ha _ (List.mem_append_right _ (List.mem_map.2 ⟨x, hx, rfl⟩))
    refine Out.Writes.toRes (o := t.sigInput ex) ?_ h
    exact writes_eq (writes_seqCons (writes_byte (b := 210) rfl) <| writes_seqCons (writes_label "erc20 addrreg tx" (by decide)) <| writes_seqCons (writes_ownKey _) <|
      writes_seqCons hx <| writes_seqCons (writes_insIds _) <|
      writes_seqCons (writes_cons (F := .riv) writes_tenTft (writes_cons (writes_fee hf) (writes_nil .riv))) <|
      writes_seqCons (writes_flagged hr) writes_seqNil) (by simp [Wire.signing])

theorem writes_particular (F : Wire.Format) (f : Fulfillment) (pk : PublicKey) : (addSeqIn F (f.hashExtras pk)).Writes (Wire.particular F pk f) := by
  unfold Fulfillment.hashExtras
  cases f with
  | single k s => exact writes_nil F
  | multi ps => exact writes_eq (writes_cons (writes_key pk F) (writes_nil F)) (by simp [Wire.particular])
  | swap k s sec => cases sec with
    | none => exact writes_eq (writes_cons (writes_key pk F) (writes_nil F)) (by simp [Wire.particular])
    | some b => exact writes_eq (writes_cons (writes_key pk F) (writes_cons (writes_raw b F) (writes_nil F))) (by simp [Wire.particular])

/-- C111: the bytes that are hashed and signed, for whatever signature of whatever version, are the network's. -/
theorem C111_signed (H : Bytes → Bytes) (t : Tx) (ht : Wire.Formed t) (hl : ∀ v, t = .v1 v → v.legacy = false) (tgt : SigTarget) (pk : PublicKey) (b : Bytes)
    (h : t.preimage H tgt pk = .ok b) : b = Wire.signed t pk tgt := by
  unfold Tx.preimage at h
  cases tgt with
  | coin i =>
    simp only at h
    cases hc : t.coinInputs with
    | none => simp only [hc] at h; cases h
    | some l =>
      simp only [hc] at h
      cases hi : l[i]? with
      | none => simp only [hi] at h; cases h
      | some ci =>
        simp only [hi] at h
        rw [writes_signing H ht hl (writes_cons (writes_int i _) (writes_particular _ ci.fulfillment pk)) h]
        simp [Wire.signed, hc, hi]
  | stake i =>
    simp only at h
    cases hi : t.stakeInputs[i]? with
    | none => simp only [hi] at h; cases h
    | some ci =>
      simp only [hi] at h
      rw [writes_signing H ht hl (writes_cons (writes_int i _) (writes_particular _ ci.fulfillment pk)) h]
      simp [Wire.signed, hi]
  | mint =>
    cases t with
    | v128 m =>
      simp only at h
      cases hm : m.mintFulfillment with
      | none => simp only [hm] at h; cases h
      | some f =>
        simp only [hm] at h
        rw [writes_signing H ht hl (writes_particular .sia f pk) h]
        simp [Wire.signed, hm]
    | v129 m =>
      simp only at h
      cases hm : m.mintFulfillment with
      | none => simp only [hm] at h; cases h
      | some f =>
        simp only [hm] at h
        rw [writes_signing H ht hl (writes_particular .sia f pk) h]
        simp [Wire.signed, hm]
    | _ => cases h
  | self role =>
    rw [writes_signing H ht hl (writes_eq (writes_cons (writes_raw role _) (writes_nil _)) (List.append_nil role)) h]
    rfl

/-! ## Legacy transactions -/

theorem writes_legacyInput (p : Hash) (f : Fulfillment) : (legacyInputBinary p f).Writes (Wire.legacyInput p f) := by
  cases f with
  | multi ps => exact writes_raise _ _
  | single k s =>
    have hs : (siaAdd (s.getD .default).val).Writes (Wire.slice .sia (Wire.sigBytes s)) := by
      cases s <;> exact writes_eq (by rw [Signature.val, siaAdd_obj]; exact writes_siaSlice _) rfl
    exact writes_eq (writes_seqCons (writes_hash p .sia) <| writes_seqCons (writes_ok [1]) <|
      writes_seqCons (writes_nested (writes_key k .sia) (writes_siaSlice _)) <| writes_seqCons hs writes_seqNil) (by simp [Wire.legacyInput, Wire.signer])
  | swap k s x =>
    have hs : (siaAdd (s.getD .default).val).Writes (Wire.slice .sia (Wire.sigBytes s)) := by
      cases s <;> exact writes_eq (by rw [Signature.val, siaAdd_obj]; exact writes_siaSlice _) rfl
    exact writes_eq (writes_seqCons (writes_hash p .sia) <| writes_seqCons (writes_ok [1]) <|
      writes_seqCons (writes_nested (writes_key k .sia) (writes_siaSlice _)) <| writes_seqCons hs writes_seqNil) (by simp [Wire.legacyInput, Wire.signer])
theorem writes_legacyOutput {H : Bytes → Bytes} {a : Condition → UnlockHash} (ha : ∀ c u, c.unlockhash H = .ok u → a c = u) {v : Val} {x : Bytes}
    (hv : (addIn .sia v).Writes x) (c : Condition) : (legacyOutput H v c).Writes (x ++ Wire.address (a c)) :=
  writes_ofRes fun u hu => by
    rw [ha c u hu]
    exact writes_eq (writes_cons (F := .sia) hv (writes_cons (writes_address u .sia) (writes_nil .sia))) (by simp)
theorem writes_legacySpend {H : Bytes → Bytes} {k : PublicKey → UnlockHash} (hk : ∀ p u, p.unlockhash H = .ok u → k p = u) (p : Hash) (f : Fulfillment) :
    (legacyInput H p f).Writes (p.value ++ Wire.address (k (Wire.signer f).1)) := by
  refine writes_ofRes fun pk hpk => writes_ofRes fun u hu => ?_
  have : (Wire.signer f).1 = pk := by cases f <;> cases hpk <;> rfl
  rw [this, hk pk u hu]
  exact writes_eq (writes_cons (F := .sia) (writes_hash p .sia) (writes_cons (writes_address u .sia) (writes_nil .sia))) (by simp)

/-- C111: a legacy transaction: `a` is the address of a condition. -/
theorem C111_legacy_encoding (H : Bytes → Bytes) (a : Condition → UnlockHash) (ha : ∀ c u, c.unlockhash H = .ok u → a c = u) (t : TxV1) (hl : t.legacy = true)
    (ht : Wire.Formed (.v1 t)) (b : Bytes) (h : (Tx.v1 t).binaryEncode H = .ok b) : b = Wire.legacyEncoding a t ∧ (Tx.v1 t).idInput H = .ok b := by
  refine ⟨?_, h⟩
  have hg := ht.amounts
  unfold Tx.binaryEncode at h; simp only at h
  rw [if_pos hl] at h
  refine Out.Writes.toRes ?_ h
  unfold TxV1.binaryData
  rw [if_pos hl]
  exact writes_eq (writes_andThen (writes_ok [0]) <| writes_seqCons (writes_siaLen _) <| writes_seqCons (writes_mapOut fun ci _ => writes_legacyInput _ _) <|
    writes_seqCons (writes_siaLen _) <|
    writes_seqCons (writes_mapOut fun co hc => writes_legacyOutput ha (writes_amount (hg _ (List.mem_append_left _ (List.mem_map.2 ⟨co, hc, rfl⟩))) .sia) _) <|
    writes_seqCons (writes_siaLen _) <| writes_seqCons (writes_mapOut fun ci _ => writes_legacyInput _ _) <|
    writes_seqCons (writes_siaLen _) <| writes_seqCons (writes_mapOut fun co _ => writes_legacyOutput ha (writes_stakes co.value .sia) _) <|
    writes_seqCons (writes_cons (F := .sia) (writes_list fun c hc => writes_amount (hg c (List.mem_append_right _ hc)) .sia)
      (writes_cons (writes_data t.data) (writes_nil .sia))) writes_seqNil) (by simp [Wire.legacyEncoding, Wire.list])

/-- C111: and what is signed for the inputs of a legacy transaction; `k` is the address of a key. -/
theorem C111_legacy_signed (H : Bytes → Bytes) (a : Condition → UnlockHash) (ha : ∀ c u, c.unlockhash H = .ok u → a c = u) (k : PublicKey → UnlockHash)
    (hk : ∀ p u, p.unlockhash H = .ok u → k p = u) (t : TxV1) (hl : t.legacy = true) (ht : Wire.Formed (.v1 t)) (i : Nat) (pk : PublicKey) (b : Bytes) :
    (∀ ci, t.coinInputs[i]? = some ci → (Tx.v1 t).preimage H (.coin i) pk = .ok b →
      b = Wire.legacySigning a k t (Wire.le 8 i ++ Wire.particular .sia pk ci.fulfillment)) ∧
    (∀ ci, t.stakeInputs[i]? = some ci → (Tx.v1 t).preimage H (.stake i) pk = .ok b →
      b = Wire.legacySigning a k t (Wire.le 8 i ++ Wire.particular .sia pk ci.fulfillment)) := by
  have hg := ht.amounts
  have key : ∀ (ex : List Val) (x : Bytes), (addSeqIn .sia ex).Writes x → (Tx.v1 t).sigInput H ex = .ok b → b = Wire.legacySigning a k t x := by
    intro ex x hx h
    refine Out.Writes.toRes (o := t.sigInput H ex) ?_ h
    unfold TxV1.sigInput TxV1.legacySigInput
    rw [if_pos hl]
    exact writes_eq (writes_seqCons hx <| writes_seqCons (writes_mapOut fun ci _ => writes_legacySpend hk _ _) <|
      writes_seqCons (writes_siaLen _) <|
      writes_seqCons (writes_mapOut fun co hc => writes_legacyOutput ha (writes_amount (hg _ (List.mem_append_left _ (List.mem_map.2 ⟨co, hc, rfl⟩))) .sia) _) <|
      writes_seqCons (writes_mapOut fun ci _ => writes_legacySpend hk _ _) <|
      writes_seqCons (writes_siaLen _) <| writes_seqCons (writes_mapOut fun co _ => writes_legacyOutput ha (writes_stakes co.value .sia) _) <|
      writes_seqCons (writes_siaList fun c hc => writes_amount (hg c (List.mem_append_right _ hc)) .sia) <|
      writes_seqCons (writes_data t.data) writes_seqNil) (by simp [Wire.legacySigning, Wire.list])
  constructor
  · intro ci hi h
    unfold Tx.preimage at h
    have hc : (Tx.v1 t).coinInputs = some t.coinInputs := rfl
    simp only [hc, hi] at h
    exact key _ _ (writes_cons (writes_int i .sia) (writes_particular .sia ci.fulfillment pk)) h
  · intro ci hi h
    unfold Tx.preimage at h
    have hc : (Tx.v1 t).stakeInputs = t.stakeInputs := rfl
    simp only [hc, hi] at h
    exact key _ _ (writes_cons (writes_int i .sia) (writes_particular .sia ci.fulfillment pk)) h

/-! ## Together with C99: the bytes are there -/

/-- C111: a transaction that fits the wire format is written in it, is identified by it, and every signature asked for is one of the network's bytes. -/
theorem C111_wire_format (L : IpLib) (hL : LawfulIp L) (H : Bytes → Bytes) (t : Tx) (hf : TxFits L t) (ht : Wire.Formed t) :
    t.binaryEncode H = .ok (Wire.encoding t) ∧ t.idInput H = .ok (Wire.identity t) ∧
    ∀ tgt pk, HasTarget t tgt → KeyFits pk → t.preimage H tgt pk = .ok (Wire.signed t pk tgt) := by
  have hl : ∀ v, t = .v1 v → v.legacy = false := by rintro v rfl; exact hf.1
  obtain ⟨b, hb⟩ := C99_encodes L hL H t hf
  obtain ⟨x, hx⟩ := C99_identified L hL H t hf
  refine ⟨?_, ?_, fun tgt pk h1 h2 => ?_⟩
  · rw [hb, C111_encoding H t ht hl b hb]
  · rw [hx, C111_identity H t ht hl x hx]
  · obtain ⟨y, hy⟩ := C99_signable L hL H t hf tgt h1 pk h2
    rw [hy, C111_signed H t ht hl tgt pk y hy]

/-- The ordinary transaction of C99 has well-formed contents. -/
example : Wire.Formed ordinaryTx := by
  refine ⟨by decide, fun _ h => (nomatch h), ?_, fun _ h => (nomatch h), fun _ h => (nomatch h)⟩
  intro f hf
  simp [Wire.fulfillments, ordinaryTx, Tx.coinInputs, Tx.stakeInputs] at hf
  rcases hf with rfl | rfl
  · exact fun _ h => nomatch h
  · intro p hp; simp at hp; subst hp; rfl
/-- So has a registration of a 3Bot with a name, an address and a refund, signed. -/
def registration : Tx := .v144 {
  addresses := [⟨.ipv4, [127, 0, 0, 1]⟩], names := [⟨"aaaaa".toList⟩], months := 3, fee := some ⟨some ⟨false, 1, -1⟩⟩
  coinInputs := [⟨⟨List.replicate 32 1⟩, .single key1 (some ⟨List.replicate 64 3, false⟩), none⟩]
  refund := some ⟨⟨some ⟨false, 5, 0⟩⟩, .unlockHash (addrOf key1), ⟨[]⟩⟩, key := some key1, sig := some ⟨List.replicate 64 4, true⟩ }
example : Wire.Formed registration := by
  refine ⟨by decide, ?_, ?_, by decide, by decide⟩
  · intro n h
    simp [Wire.names, registration] at h
    subst h
    exact .inr ⟨"aaaaa".toList, by decide +kernel⟩
  · intro f hf
    simp [Wire.fulfillments, registration, Tx.coinInputs, Tx.stakeInputs] at hf
    subst hf
    intro x hx; cases hx; rfl
/-- It begins with the version, the months (3) with the three flags, and the two counts. -/
example : (Wire.encoding registration).take 3 = [144, 3 + 32 + 64 + 128, 1 + 16 * 1] := by decide
/-- The layout of a legacy transaction with an output: the version, no inputs, one output of 5 TFT. -/
example : (Wire.legacyEncoding (fun _ => ⟨1, ⟨List.replicate 32 9⟩⟩) { coinOutputs := [⟨⟨some ⟨false, 5, 0⟩⟩, .nil, ⟨[]⟩⟩], legacy := true }).take 31 =
    [0] ++ [0, 0, 0, 0, 0, 0, 0, 0] ++ [1, 0, 0, 0, 0, 0, 0, 0] ++ [5, 0, 0, 0, 0, 0, 0, 0] ++ [1, 0x2a, 0x05, 0xf2, 0x00] ++ [1] := by decide +kernel

/-- A registration of 17 addresses. -/
def overlong : Tx := .v144 { addresses := List.replicate 17 ⟨.ipv4, [127, 0, 0, 1]⟩, months := 1 }
/-- **C111** (finding). The layout has no room for more than 15 addresses in a registration. Such a registration is not refused: it is encoded, and
its second count byte tells one address and one name. -/
theorem C111_overlong_false (H : Bytes → Bytes) : ∃ b, overlong.binaryEncode H = .ok b ∧ b[2]? = some (Wire.two 1 1) := by
  have : ∀ H H', overlong.binaryEncode H = overlong.binaryEncode H' := fun _ _ => rfl
  have h : (overlong.binaryEncode fun _ => []).toOption.bind (·[2]?) = some (Wire.two 1 1) := by decide +kernel
  rw [this H fun _ => []]
  cases hb : overlong.binaryEncode fun _ => [] with
  | error e => rw [hb] at h; cases h
  | ok b => rw [hb] at h; exact ⟨b, rfl, h⟩

end TF.Props
