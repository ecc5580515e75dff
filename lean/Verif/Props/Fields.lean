import Verif.Spec.Fields
import Verif.Props.Signing
import Verif.Props.Client
/-! # C115: the properties of transactions -/
namespace TF.Props
open TF TF.Spec

/-! ## Helpers: the conversions -/

theorem bin_exactly (v : BVal) (n : Nat) (hn : n ≠ 0) (enc : StrEnc) :
    (BinData.new v (some n) enc).toOption.map (·.value) = (v.norm enc).toOption.bind (exactly n) := by
  simp only [BinData.new, BinData.set, show ¬ ((n : Int) < 0) by omega, show (n : Int) ≠ 0 by omega, Int.toNat_natCast, if_false, if_true, ne_eq, not_false_eq_true]
  cases hv : v.norm enc with
  | error e => rfl
  | ok b =>
    simp only [exactly, Except.toOption, Option.bind_some, bind, Except.bind]
    by_cases h : b = [] ∨ b.length = n
    · have : ¬ (¬ b.length = 0 ∧ ¬ b.length = n) := by
        rintro ⟨h1, h2⟩
        rcases h with h | h
        · exact h1 (by simp [h])
        · exact h2 h
      rw [if_pos h, if_neg this]
      rfl
    · have : ¬ b.length = 0 ∧ ¬ b.length = n := ⟨fun h1 => h (.inl (List.length_eq_zero_iff.1 h1)), fun h2 => h (.inr h2)⟩
      rw [if_neg h, if_pos this]
      rfl

theorem norm_arg (a : Arg) (n : Nat) (enc : StrEnc) (henc : enc = .hex ∨ enc = .hexprefix) :
    (a.bval.norm enc).toOption.bind (exactly n) = bytesOf n (enc = .hexprefix) a := by
  rcases henc with rfl | rfl
  · cases a with
    | str s =>
      simp only [Arg.bval, BVal.norm, StrEnc.fromStr, bytesOf]
      have : (if (decide (StrEnc.hex = StrEnc.hexprefix)) = true ∧ (s.take 2 = ['0', 'x'] ∨ s.take 2 = ['0', 'X']) then s.drop 2 else s) = s := by
        rw [if_neg]; rintro ⟨h, -⟩; cases h
      rw [this]
      cases fromHex s <;> rfl
    | none => simp [Arg.bval, BVal.norm, bytesOf, Except.toOption, exactly]
    | _ => rfl
  · cases a with
    | str s =>
      simp only [Arg.bval, BVal.norm, StrEnc.fromStr, bytesOf, decide_true, true_and]
      cases fromHex (if s.take 2 = ['0', 'x'] ∨ s.take 2 = ['0', 'X'] then s.drop 2 else s) <;> rfl
    | none => simp [Arg.bval, BVal.norm, bytesOf, Except.toOption, exactly]
    | _ => rfl

theorem setValue_amount (a : Arg) : (setValue a).toOption = amountArg a := by
  cases a with
  | int i =>
    show (Currency.checkDec (.fin (Dec.ofInt i))).toOption = _
    by_cases h : 0 ≤ i
    · have e : Dec.ofInt i = ⟨false, i.toNat, 0⟩ := by
        unfold Dec.ofInt
        rw [show i.natAbs = i.toNat by omega, show decide (i < 0) = false by simpa using h]
      rw [e]
      simp only [amountArg, h, if_true]
      rfl
    · have e : Dec.ofInt i = ⟨true, i.natAbs, 0⟩ := by
        unfold Dec.ofInt
        rw [show decide (i < 0) = true by simpa using h]
      rw [e]
      simp only [amountArg, h, if_false]
      rfl
  | str s => rfl
  | dec d => rfl
  | _ => rfl

theorem setFee_value (a : Arg) : (setFee a).toOption.map feeOr = (setValue a).toOption := by
  cases a <;> first | rfl | (simp only [setFee, setValue]; rename_i x; first | (cases Currency.set (Arg.cval (.int x)) <;> rfl) | (cases Currency.set (Arg.cval (.str x)) <;> rfl) | (cases Currency.set (Arg.cval (.dec x)) <;> rfl))

theorem setFee_amount (a : Arg) : (setFee a).toOption.map feeOr = amountArg a := by rw [setFee_value, setValue_amount]

theorem setSig_bytes (a : Arg) : (setSigArg a).toOption.map sigOr = (bytesOf 64 false a).map fun b => ⟨b, true⟩ := by
  have key : ∀ v : BVal, (Signature.new v true).toOption = ((BinData.new v (some (64 : Nat)) .hex).toOption.map (·.value)).map fun b => ⟨b, true⟩ := by
    intro v
    show (Signature.new v true).toOption = ((BinData.new v (some 64) .hex).toOption.map (·.value)).map fun b => ⟨b, true⟩
    unfold Signature.new
    cases BinData.new v (some 64) .hex <;> rfl
  have go : ∀ v : BVal, ((do return some (← Signature.new v true)) : Res (Option Signature)).toOption.map sigOr = (Signature.new v true).toOption := by
    intro v
    cases Signature.new v true <;> rfl
  have main : ∀ a : Arg, (Signature.new a.bval true).toOption = (bytesOf 64 false a).map fun b => ⟨b, true⟩ := by
    intro a
    rw [key, bin_exactly _ _ (by decide), norm_arg a 64 .hex (.inl rfl)]
    rfl
  cases a with
  | none => rfl
  | str s => exact (go _).trans (main (.str s))
  | bytes b => exact (go _).trans (main (.bytes b))
  | bin d => exact (go _).trans (main (.bin d))
  | _ => rfl

theorem setErc_bytes (n : Nat) (hn : n ≠ 0) (a : Arg) : (setErcArg n a).toOption = bytesOf n true a := by
  have key : ∀ v : BVal, (erc20New n v).toOption = (BinData.new v (some n) .hexprefix).toOption.map (·.value) := by
    intro v
    unfold erc20New
    cases BinData.new v (some n) .hexprefix <;> rfl
  have main : ∀ a : Arg, (erc20New n a.bval).toOption = bytesOf n true a := by
    intro a
    rw [key, bin_exactly _ _ hn, norm_arg a n .hexprefix (.inr rfl)]
    simp
  cases a with
  | none => rfl
  | _ => exact main _

/-! ## One assignment -/

/-- What one assignment does. -/
def Changes (H : Bytes → Bytes) (t : Tx) (f : Field) (a : Arg) (t' : Tx) : Prop :=
  t'.version = t.version ∧ (∀ g, g ≠ f → t'.read g = t.read g) ∧
    t'.read f = (if f ∈ fieldsOf t.version then (match means H t.version f a with
      | some s => some s
      | none => t.read f) else t.read f)

/-- The transaction after an assignment. -/
def after (t : Tx) (r : Option (Tx × Option Err)) : Tx :=
  match r with
  | none => t
  | some r => r.1

theorem store_changes {α : Type} {H : Bytes → Bytes} {t : Tx} {r : Res α} {put : α → Tx} {f : Field} {a : Arg} (sh : α → Shown)
    (hm : r.toOption.map sh = means H t.version f a) (n : Nat) (hv : t.version = n) (hf : f ∈ fieldsOf n)
    (hput : ∀ x, (put x).version = t.version ∧ (∀ g, g ≠ f → (put x).read g = t.read g) ∧ (put x).read f = some (sh x)) :
    Changes H t f a (after t (store t r put)) := by
  subst hv
  unfold Changes
  rw [if_pos hf, ← hm]
  cases r with
  | error e => exact ⟨rfl, fun _ _ => rfl, rfl⟩
  | ok x => exact hput x

theorem none_changes {H : Bytes → Bytes} {t : Tx} {f : Field} {a : Arg} (n : Nat) (hv : t.version = n) (hf : f ∉ fieldsOf n) : Changes H t f a t := by
  subst hv
  unfold Changes
  rw [if_neg hf]
  exact ⟨rfl, fun _ _ => rfl, rfl⟩

theorem outputs_changes {H : Bytes → Bytes} {version : Nat} (hv : version = 1 ∨ version = 129) {a : Arg} (h : means H version .outputs a ≠ none) :
    means H version .outputs a = some (.outs (setOutputsArg a).1) := by
  cases a with
  | outputs l => simp only [means, setOutputsArg]; rcases hv with rfl | rfl <;> simp
  | none => rfl
  | int i =>
    by_cases e : i = 0
    · subst e; simp only [means, setOutputsArg, hv, if_true]
    · simp [means, e] at h
  | str s =>
    cases s with
    | nil => simp only [means, setOutputsArg, hv, if_true]
    | cons c s => simp [means] at h
  | bytes s =>
    cases s with
    | nil => simp only [means, setOutputsArg, hv, if_true]
    | cons c s => simp [means] at h
  | bin d =>
    by_cases e : d.value = []
    · simp only [means, setOutputsArg, hv, e, and_self, if_true]
    · simp [means, e] at h
  | dec d =>
    cases d with
    | special => simp [means] at h
    | fin d =>
      by_cases e : d.coef = 0
      · simp only [means, setOutputsArg, hv, e, and_self, if_true]
      · simp [means, e] at h
  | output co => simp [means, hv] at h
  | _ => simp [means] at h

theorem months_means {H : Bytes → Bytes} {version : Nat} {a : Arg} : (setMonthsArg (if version = 144 then 1 else 0) a).toOption.map Shown.int = means H version .months a := by
  cases a with
  | int n =>
    simp only [setMonthsArg, means]
    by_cases h : (if version = 144 then (1 : Int) else 0) ≤ n ∧ n ≤ 24
    · rw [if_neg (by omega), if_pos h]; rfl
    · rw [if_pos (by omega), if_neg h]; rfl
  | _ => rfl

theorem bot_means {a : Arg} : (setBotArg a).toOption.map (fun x => Shown.int (x.getD 0)) = (match a with
    | .none => some (.int 0)
    | .int i => if 1 ≤ i then some (.int i) else none
    | _ => none) := by
  cases a with
  | int i =>
    simp only [setBotArg, setBotId]
    by_cases h : 1 ≤ i
    · rw [if_neg (by omega), if_pos h]; rfl
    · rw [if_pos (by omega), if_neg h]; rfl
  | _ => rfl

theorem key_means {a : Arg} : (setKeyArg a).toOption.map (fun x => Shown.key (keyOr x)) = (match a with
    | .none => some (.key .default)
    | .key k => some (.key k)
    | _ => none) := by cases a <;> rfl

theorem refund_means {H : Bytes → Bytes} {version : Nat} (hv : ¬ (version = 1 ∨ version = 129)) {a : Arg} :
    (setRefundArg a).toOption.map (fun x => Shown.outs x.toList) = means H version .outputs a := by
  have h1 : version ≠ 1 := fun e => hv (.inl e)
  have h2 : version ≠ 129 := fun e => hv (.inr e)
  cases a with
  | outputs l =>
    match l with
    | [] => simp [setRefundArg, setRefund, means, Except.toOption]
    | [co] => simp [setRefundArg, setRefund, means, Except.toOption]
    | c :: d :: l => simp [setRefundArg, setRefund, means, Except.toOption, h1, h2]
  | output co => simp [setRefundArg, means, Except.toOption, h1, h2]
  | int i => by_cases e : i = 0 <;> simp [setRefundArg, means, Except.toOption, h1, h2, e]
  | str s => cases s <;> simp [setRefundArg, means, Except.toOption, h1, h2]
  | bytes s => cases s <;> simp [setRefundArg, means, Except.toOption, h1, h2]
  | bin d => simp [setRefundArg, means, Except.toOption, h1, h2]
  | dec d => cases d <;> simp [setRefundArg, means, Except.toOption, h1, h2]
  | _ => rfl

theorem cond_means {a : Arg} : (setCondArg a).toOption.map (fun x => Shown.cond (x.getD .nil)) = (match a with
    | .none => some (.cond .nil)
    | .cond c => some (.cond c)
    | _ => none) := by cases a <;> rfl

theorem ful_means {a : Arg} : (setFulArg a).toOption.map (fun x => Shown.ful (x.getD (.single .default none))) = (match a with
    | .none => some (.ful (.single .default none))
    | .ful f => some (.ful f)
    | _ => none) := by cases a <;> rfl

theorem data_means {H : Bytes → Bytes} {version : Nat} {a : Arg} : (setDataArg a).toOption.map Shown.bytes = means H version .data a := by
  cases a with
  | str s =>
    simp only [setDataArg, TF.setData, means, short]
    by_cases h : (utf8 s).length ≤ 83
    · rw [if_neg (by omega), if_pos h]; rfl
    · rw [if_pos (by omega), if_neg h]; rfl
  | bytes b =>
    simp only [setDataArg, TF.setData, means, short]
    by_cases h : b.length ≤ 83
    · rw [if_neg (by omega), if_pos h]; rfl
    · rw [if_pos (by omega), if_neg h]; rfl
  | bin d =>
    simp only [setDataArg, TF.setData, means, short]
    by_cases h : d.value.length ≤ 83
    · rw [if_neg (by omega), if_pos h]; rfl
    · rw [if_pos (by omega), if_neg h]; rfl
  | outputs l => simp only [setDataArg, means]; split <;> rfl
  | _ => rfl

theorem address_means {H : Bytes → Bytes} {version : Nat} {a : Arg} : (setAddressArg H a).toOption.map Shown.uh = means H version .address a := by
  cases a <;> rfl

seal Currency.set in
theorem registration_means {H : Bytes → Bytes} {version : Nat} {a : Arg} :
    (setRegistrationArg a).toOption.map (fun _ => Shown.cur registrationFee) = means H version .registrationFee a := by
  have key : ∀ a : Arg, (match setValue a with
      | .ok c => if c.eqv registrationFee = true then some (Shown.cur registrationFee) else none
      | .error _ => none) = (match amountArg a with
      | some c => if c.eqv registrationFee = true then some (Shown.cur registrationFee) else none
      | none => none) := by
    intro a
    rw [← setValue_amount]
    cases setValue a <;> rfl
  have go : ∀ r : Res Currency, ((do let fee ← r; if fee.eqv registrationFee then return () else throw .valueError : Res Unit)).toOption.map
      (fun _ => Shown.cur registrationFee) = (match r with
      | .ok c => if c.eqv registrationFee = true then some (Shown.cur registrationFee) else none
      | .error _ => none) := by
    intro r
    cases r with
    | error e => rfl
    | ok c =>
      simp only [bind, Except.bind]
      cases c.eqv registrationFee <;> rfl
  cases a with
  | none => rfl
  | int x => exact (go _).trans (key (.int x))
  | str x => exact (go _).trans (key (.str x))
  | bytes x => exact (go _).trans (key (.bytes x))
  | bin x => exact (go _).trans (key (.bin x))
  | cur x => exact (go _).trans (key (.cur x))
  | dec x => exact (go _).trans (key (.dec x))
  | key x => exact (go _).trans (key (.key x))
  | uh x => exact (go _).trans (key (.uh x))
  | cond x => exact (go _).trans (key (.cond x))
  | ful x => exact (go _).trans (key (.ful x))
  | output x => exact (go _).trans (key (.output x))
  | outputs x => exact (go _).trans (key (.outputs x))
  | other => exact (go _).trans (key .other)

theorem fee_shown (a : Arg) : (setFee a).toOption.map (fun x => Shown.cur (feeOr x)) = (amountArg a).map .cur := by
  rw [← setFee_amount]
  cases (setFee a).toOption <;> rfl
theorem value_shown (a : Arg) : (setValue a).toOption.map Shown.cur = (amountArg a).map .cur := by rw [← setValue_amount]
theorem sig_shown (a : Arg) : (setSigArg a).toOption.map (fun x => Shown.sig (sigOr x)) = (bytesOf 64 false a).map fun b => .sig ⟨b, true⟩ := by
  have h := setSig_bytes a
  cases h1 : (setSigArg a).toOption <;> cases h2 : bytesOf 64 false a <;> rw [h1, h2] at h <;> simp_all
theorem erc_shown (n : Nat) (hn : n ≠ 0) (a : Arg) : (setErcArg n a).toOption.map Shown.bytes = (bytesOf n true a).map .bytes := by rw [setErc_bytes n hn]

theorem changes_v1 {H : Bytes → Bytes} {v : TxV1} {f : Field} {a : Arg} (hk : Kept H 1 (f, a)) : Changes H (.v1 v) f a (after (.v1 v) ((Tx.v1 v).assign H f a)) := by
  cases f
  case outputs =>
    have hm := outputs_changes (H := H) (version := 1) (by decide) (hk rfl (by decide))
    refine ⟨rfl, fun g hg => by cases g <;> first | rfl | exact absurd rfl hg, ?_⟩
    have hm' : means H (Tx.v1 v).version .outputs a = some (.outs (setOutputsArg a).1) := hm
    rw [show (Tx.v1 v).version = 1 from rfl] at hm' ⊢
    rw [if_pos (by decide), hm']; rfl
  case data => exact store_changes Shown.bytes data_means 1 rfl (by decide) fun x => ⟨rfl, fun g hg => by cases g <;> first | rfl | exact absurd rfl hg, rfl⟩
  all_goals exact none_changes 1 rfl (by decide)

theorem changes_v128 {H : Bytes → Bytes} {v : TxV128} {f : Field} {a : Arg} : Changes H (.v128 v) f a (after (.v128 v) ((Tx.v128 v).assign H f a)) := by
  cases f
  case data => exact store_changes Shown.bytes data_means 128 rfl (by decide) fun x => ⟨rfl, fun g hg => by cases g <;> first | rfl | exact absurd rfl hg, rfl⟩
  case mintCondition => exact store_changes (fun x => .cond (x.getD .nil)) (cond_means.trans (by cases a <;> rfl)) 128 rfl (by decide) fun x => ⟨rfl, fun g hg => by cases g <;> first | rfl | exact absurd rfl hg, rfl⟩
  case parentMint => exact store_changes (fun x => .cond (x.getD .nil)) (cond_means.trans (by cases a <;> rfl)) 128 rfl (by decide) fun x => ⟨rfl, fun g hg => by cases g <;> first | rfl | exact absurd rfl hg, rfl⟩
  case mintFulfillment => exact store_changes (fun x => .ful (x.getD (.single .default none))) (ful_means.trans (by cases a <;> rfl)) 128 rfl (by decide) fun x => ⟨rfl, fun g hg => by cases g <;> first | rfl | exact absurd rfl hg, rfl⟩
  all_goals exact none_changes 128 rfl (by decide)

theorem changes_v129 {H : Bytes → Bytes} {v : TxV129} {f : Field} {a : Arg} (hk : Kept H 129 (f, a)) : Changes H (.v129 v) f a (after (.v129 v) ((Tx.v129 v).assign H f a)) := by
  cases f
  case outputs =>
    have hm := outputs_changes (H := H) (version := 129) (by decide) (hk rfl (by decide))
    refine ⟨rfl, fun g hg => by cases g <;> first | rfl | exact absurd rfl hg, ?_⟩
    have hm' : means H (Tx.v129 v).version .outputs a = some (.outs (setOutputsArg a).1) := hm
    rw [show (Tx.v129 v).version = 129 from rfl] at hm' ⊢
    rw [if_pos (by decide), hm']; rfl
  case data => exact store_changes Shown.bytes data_means 129 rfl (by decide) fun x => ⟨rfl, fun g hg => by cases g <;> first | rfl | exact absurd rfl hg, rfl⟩
  case parentMint => exact store_changes (fun x => .cond (x.getD .nil)) (cond_means.trans (by cases a <;> rfl)) 129 rfl (by decide) fun x => ⟨rfl, fun g hg => by cases g <;> first | rfl | exact absurd rfl hg, rfl⟩
  case mintFulfillment => exact store_changes (fun x => .ful (x.getD (.single .default none))) (ful_means.trans (by cases a <;> rfl)) 129 rfl (by decide) fun x => ⟨rfl, fun g hg => by cases g <;> first | rfl | exact absurd rfl hg, rfl⟩
  all_goals exact none_changes 129 rfl (by decide)

theorem changes_v144 {H : Bytes → Bytes} {v : TxV144} {f : Field} {a : Arg} : Changes H (.v144 v) f a (after (.v144 v) ((Tx.v144 v).assign H f a)) := by
  cases f
  case fee => exact store_changes (fun x => .cur (feeOr x)) (fee_shown a) 144 rfl (by decide) fun x => ⟨rfl, fun g hg => by cases g <;> first | rfl | exact absurd rfl hg, rfl⟩
  case months => exact store_changes Shown.int (months_means (version := 144)) 144 rfl (by decide) fun x => ⟨rfl, fun g hg => by cases g <;> first | rfl | exact absurd rfl hg, rfl⟩
  case key => exact store_changes (fun x => .key (keyOr x)) (key_means.trans (by cases a <;> rfl)) 144 rfl (by decide) fun x => ⟨rfl, fun g hg => by cases g <;> first | rfl | exact absurd rfl hg, rfl⟩
  case signature => exact store_changes (fun x => .sig (sigOr x)) (sig_shown a) 144 rfl (by decide) fun x => ⟨rfl, fun g hg => by cases g <;> first | rfl | exact absurd rfl hg, rfl⟩
  case outputs => exact store_changes (fun x => .outs x.toList) (refund_means (version := 144) (by decide)) 144 rfl (by decide) fun x => ⟨rfl, fun g hg => by cases g <;> first | rfl | exact absurd rfl hg, rfl⟩
  all_goals exact none_changes 144 rfl (by decide)

theorem changes_v145 {H : Bytes → Bytes} {v : TxV145} {f : Field} {a : Arg} : Changes H (.v145 v) f a (after (.v145 v) ((Tx.v145 v).assign H f a)) := by
  cases f
  case botid => exact store_changes (fun x => .int (x.getD 0)) (bot_means.trans (by cases a <;> rfl)) 145 rfl (by decide) fun x => ⟨rfl, fun g hg => by cases g <;> first | rfl | exact absurd rfl hg, rfl⟩
  case fee => exact store_changes (fun x => .cur (feeOr x)) (fee_shown a) 145 rfl (by decide) fun x => ⟨rfl, fun g hg => by cases g <;> first | rfl | exact absurd rfl hg, rfl⟩
  case months => exact store_changes Shown.int (months_means (version := 145)) 145 rfl (by decide) fun x => ⟨rfl, fun g hg => by cases g <;> first | rfl | exact absurd rfl hg, rfl⟩
  case parentKey => exact store_changes (fun x => .key (keyOr x)) (key_means.trans (by cases a <;> rfl)) 145 rfl (by decide) fun x => ⟨rfl, fun g hg => by cases g <;> first | rfl | exact absurd rfl hg, rfl⟩
  case signature => exact store_changes (fun x => .sig (sigOr x)) (sig_shown a) 145 rfl (by decide) fun x => ⟨rfl, fun g hg => by cases g <;> first | rfl | exact absurd rfl hg, rfl⟩
  case outputs => exact store_changes (fun x => .outs x.toList) (refund_means (version := 145) (by decide)) 145 rfl (by decide) fun x => ⟨rfl, fun g hg => by cases g <;> first | rfl | exact absurd rfl hg, rfl⟩
  all_goals exact none_changes 145 rfl (by decide)

theorem changes_v146 {H : Bytes → Bytes} {v : TxV146} {f : Field} {a : Arg} : Changes H (.v146 v) f a (after (.v146 v) ((Tx.v146 v).assign H f a)) := by
  cases f
  case senderBot => exact store_changes (fun x => .int (x.getD 0)) (bot_means.trans (by cases a <;> rfl)) 146 rfl (by decide) fun x => ⟨rfl, fun g hg => by cases g <;> first | rfl | exact absurd rfl hg, rfl⟩
  case receiverBot => exact store_changes (fun x => .int (x.getD 0)) (bot_means.trans (by cases a <;> rfl)) 146 rfl (by decide) fun x => ⟨rfl, fun g hg => by cases g <;> first | rfl | exact absurd rfl hg, rfl⟩
  case fee => exact store_changes (fun x => .cur (feeOr x)) (fee_shown a) 146 rfl (by decide) fun x => ⟨rfl, fun g hg => by cases g <;> first | rfl | exact absurd rfl hg, rfl⟩
  case senderKey => exact store_changes (fun x => .key (keyOr x)) (key_means.trans (by cases a <;> rfl)) 146 rfl (by decide) fun x => ⟨rfl, fun g hg => by cases g <;> first | rfl | exact absurd rfl hg, rfl⟩
  case receiverKey => exact store_changes (fun x => .key (keyOr x)) (key_means.trans (by cases a <;> rfl)) 146 rfl (by decide) fun x => ⟨rfl, fun g hg => by cases g <;> first | rfl | exact absurd rfl hg, rfl⟩
  case senderSig => exact store_changes (fun x => .sig (sigOr x)) (sig_shown a) 146 rfl (by decide) fun x => ⟨rfl, fun g hg => by cases g <;> first | rfl | exact absurd rfl hg, rfl⟩
  case receiverSig => exact store_changes (fun x => .sig (sigOr x)) (sig_shown a) 146 rfl (by decide) fun x => ⟨rfl, fun g hg => by cases g <;> first | rfl | exact absurd rfl hg, rfl⟩
  case outputs => exact store_changes (fun x => .outs x.toList) (refund_means (version := 146) (by decide)) 146 rfl (by decide) fun x => ⟨rfl, fun g hg => by cases g <;> first | rfl | exact absurd rfl hg, rfl⟩
  all_goals exact none_changes 146 rfl (by decide)

theorem changes_v208 {H : Bytes → Bytes} {v : TxV208} {f : Field} {a : Arg} : Changes H (.v208 v) f a (after (.v208 v) ((Tx.v208 v).assign H f a)) := by
  cases f
  case ercAddress => exact store_changes Shown.bytes (erc_shown 20 (by decide) a) 208 rfl (by decide) fun x => ⟨rfl, fun g hg => by cases g <;> first | rfl | exact absurd rfl hg, rfl⟩
  case value => exact store_changes Shown.cur (value_shown a) 208 rfl (by decide) fun x => ⟨rfl, fun g hg => by cases g <;> first | rfl | exact absurd rfl hg, rfl⟩
  case fee => exact store_changes (fun x => .cur (feeOr x)) (fee_shown a) 208 rfl (by decide) fun x => ⟨rfl, fun g hg => by cases g <;> first | rfl | exact absurd rfl hg, rfl⟩
  case outputs => exact store_changes (fun x => .outs x.toList) (refund_means (version := 208) (by decide)) 208 rfl (by decide) fun x => ⟨rfl, fun g hg => by cases g <;> first | rfl | exact absurd rfl hg, rfl⟩
  all_goals exact none_changes 208 rfl (by decide)

theorem changes_v209 {H : Bytes → Bytes} {v : TxV209} {f : Field} {a : Arg} : Changes H (.v209 v) f a (after (.v209 v) ((Tx.v209 v).assign H f a)) := by
  cases f
  case address => exact store_changes Shown.uh address_means 209 rfl (by decide) fun x => ⟨rfl, fun g hg => by cases g <;> first | rfl | exact absurd rfl hg, rfl⟩
  case value => exact store_changes Shown.cur (value_shown a) 209 rfl (by decide) fun x => ⟨rfl, fun g hg => by cases g <;> first | rfl | exact absurd rfl hg, rfl⟩
  case fee => exact store_changes (fun x => .cur (feeOr x)) (fee_shown a) 209 rfl (by decide) fun x => ⟨rfl, fun g hg => by cases g <;> first | rfl | exact absurd rfl hg, rfl⟩
  case blockId => exact store_changes Shown.bytes (erc_shown 32 (by decide) a) 209 rfl (by decide) fun x => ⟨rfl, fun g hg => by cases g <;> first | rfl | exact absurd rfl hg, rfl⟩
  case txId => exact store_changes Shown.bytes (erc_shown 32 (by decide) a) 209 rfl (by decide) fun x => ⟨rfl, fun g hg => by cases g <;> first | rfl | exact absurd rfl hg, rfl⟩
  all_goals exact none_changes 209 rfl (by decide)

theorem changes_v210 {H : Bytes → Bytes} {v : TxV210} {f : Field} {a : Arg} : Changes H (.v210 v) f a (after (.v210 v) ((Tx.v210 v).assign H f a)) := by
  cases f
  case key => exact store_changes (fun x => .key (keyOr x)) (key_means.trans (by cases a <;> rfl)) 210 rfl (by decide) fun x => ⟨rfl, fun g hg => by cases g <;> first | rfl | exact absurd rfl hg, rfl⟩
  case signature => exact store_changes (fun x => .sig (sigOr x)) (sig_shown a) 210 rfl (by decide) fun x => ⟨rfl, fun g hg => by cases g <;> first | rfl | exact absurd rfl hg, rfl⟩
  case fee => exact store_changes (fun x => .cur (feeOr x)) (fee_shown a) 210 rfl (by decide) fun x => ⟨rfl, fun g hg => by cases g <;> first | rfl | exact absurd rfl hg, rfl⟩
  case outputs => exact store_changes (fun x => .outs x.toList) (refund_means (version := 210) (by decide)) 210 rfl (by decide) fun x => ⟨rfl, fun g hg => by cases g <;> first | rfl | exact absurd rfl hg, rfl⟩
  case registrationFee => exact store_changes (fun _ => .cur registrationFee) registration_means 210 rfl (by decide) fun x => ⟨rfl, fun g hg => by cases g <;> first | rfl | exact absurd rfl hg, rfl⟩
  all_goals exact none_changes 210 rfl (by decide)

/-- One assignment, accepted or refused. -/
theorem assign_changes {H : Bytes → Bytes} {t : Tx} {f : Field} {a : Arg} (hk : Kept H t.version (f, a)) :
    Changes H t f a (after t (t.assign H f a)) := by
  cases t with
  | v1 v => exact changes_v1 hk
  | v128 v => exact changes_v128
  | v129 v => exact changes_v129 hk
  | v144 v => exact changes_v144
  | v145 v => exact changes_v145
  | v146 v => exact changes_v146
  | v208 v => exact changes_v208
  | v209 v => exact changes_v209
  | v210 v => exact changes_v210

/-! ## A history of assignments -/

theorem assignAll_after (H : Bytes → Bytes) (t : Tx) (x : Field × Arg) (l : List (Field × Arg)) :
    t.assignAll H (x :: l) = (after t (t.assign H x.1 x.2)).assignAll H l := rfl

theorem assignAll_version {H : Bytes → Bytes} : ∀ (l : List (Field × Arg)) (t : Tx), (∀ x ∈ l, Kept H t.version x) → (t.assignAll H l).version = t.version
  | [], _, _ => rfl
  | x :: l, t, h => by
    have hc := assign_changes (h x (List.mem_cons_self ..))
    rw [assignAll_after, assignAll_version l _ (by rw [hc.1]; exact fun y hy => h y (List.mem_cons_of_mem _ hy)), hc.1]

theorem assignAll_read {H : Bytes → Bytes} : ∀ (l : List (Field × Arg)) (t : Tx), (∀ x ∈ l, Kept H t.version x) → ∀ f ∈ fieldsOf t.version,
    ∀ s, t.read f = some s →
    (t.assignAll H l).read f = some (((l.filterMap fun x => if x.1 = f then means H t.version f x.2 else none).getLast?).getD s)
  | [], _, _, _, _, _, hs => hs
  | x :: l, t, h, f, hf, s, hs => by
    have hc := assign_changes (h x (List.mem_cons_self ..))
    have hk : ∀ y ∈ l, Kept H (after t (t.assign H x.1 x.2)).version y := by rw [hc.1]; exact fun y hy => h y (List.mem_cons_of_mem _ hy)
    have hf' : f ∈ fieldsOf (after t (t.assign H x.1 x.2)).version := by rw [hc.1]; exact hf
    rw [assignAll_after]
    by_cases e : x.1 = f
    · subst e
      have h3 := hc.2.2
      rw [if_pos hf] at h3
      cases hm : means H t.version x.1 x.2 with
      | none =>
        rw [hm] at h3
        rw [assignAll_read l _ hk x.1 hf' s (by rw [h3]; exact hs), hc.1]
        simp [hm]
      | some v =>
        rw [hm] at h3
        rw [assignAll_read l _ hk x.1 hf' v h3, hc.1]
        simp only [List.filterMap_cons, if_true, hm]
        cases hl : (l.filterMap fun x' => if x'.1 = x.1 then means H t.version x.1 x'.2 else none) with
        | nil => rfl
        | cons a b => rw [List.getLast?_cons_cons]; cases hq : (a :: b).getLast? with
          | none => simp at hq
          | some q => rfl
    · rw [assignAll_read l _ hk f hf' s (by rw [hc.2.1 f (fun e' => e e'.symm)]; exact hs), hc.1]
      simp [e]

theorem fresh_read {nonce : Bytes} {version : Nat} {t : Tx} (ht : Tx.fresh nonce version = some t) :
    t.version = version ∧ ∀ f ∈ fieldsOf version, t.read f = some (initially f) := by
  unfold Tx.fresh at ht
  split at ht <;> cases ht <;> refine ⟨rfl, ?_⟩ <;> intro f hf <;>
    simp only [fieldsOf, List.mem_cons, List.not_mem_nil, or_false] at hf <;> (rcases hf with rfl | rfl | rfl | rfl | rfl | rfl | rfl | rfl) <;> rfl

/-- **C115.** After any history of assignments to a new transaction of any class, every property shows the value of the last assignment to
it that was not refused, and its initial value if there was none. -/
theorem C115_fields_partial (H : Bytes → Bytes) (nonce : Bytes) (version : Nat) (t : Tx) (ht : Tx.fresh nonce version = some t) (l : List (Field × Arg))
    (hk : ∀ x ∈ l, Kept H version x) (_ho : ∀ x ∈ l, ¬ Odd x) (f : Field) (hf : f ∈ fieldsOf version) :
    (t.assignAll H l).read f = some (shows H version f l) := by
  obtain ⟨rfl, hr⟩ := fresh_read ht
  exact assignAll_read l t hk f hf _ (hr f hf)

theorem store_err {α : Type} {t t' : Tx} {r : Res α} {put : α → Tx} {e : Err} (h : store t r put = some (t', some e)) : t' = t := by
  cases r with
  | ok x => cases h
  | error e => cases h; rfl

/-- **C115.** A refused assignment changes nothing at all, except that the list of outputs is emptied. -/
theorem C115_refused (H : Bytes → Bytes) (t t' : Tx) (f : Field) (a : Arg) (e : Err) (h : t.assign H f a = some (t', some e))
    (hl : f = .outputs → t.version ≠ 1 ∧ t.version ≠ 129) : t' = t := by
  cases t <;> cases f <;> first
    | exact store_err h
    | exact absurd rfl (hl rfl).1
    | exact absurd rfl (hl rfl).2
    | cases h

/-- **C115 is false** for the outputs of an ordinary payment: assigning one output instead of a list is refused, and the outputs that were
there are gone. -/
theorem C115_refused_false : ∃ (t : Tx) (a : Arg) (t' : Tx) (e : Err), t.assign toyHash .outputs a = some (t', some e) ∧
    t.read .outputs = some (.outs [⟨⟨some ⟨false, 9, 0⟩⟩, .unlockHash (addrOf key1), ⟨[]⟩⟩]) ∧ t'.read .outputs = some (.outs []) :=
  ⟨.v1 { coinOutputs := [⟨⟨some ⟨false, 9, 0⟩⟩, .unlockHash (addrOf key1), ⟨[]⟩⟩] }, .output ⟨⟨some ⟨false, 9, 0⟩⟩, .unlockHash (addrOf key2), ⟨[]⟩⟩, _, _,
    rfl, rfl, rfl⟩

theorem store_accepts {α β : Type} {t : Tx} {r : Res α} {put : α → Tx} {sh : α → β} {m : Option β} (hm : r.toOption.map sh = m) :
    ∃ t' e, store t r put = some (t', e) ∧ (e = none ↔ m ≠ none) := by
  subst hm
  cases r with
  | ok x => exact ⟨_, _, rfl, by simp [Except.toOption]⟩
  | error e => exact ⟨_, _, rfl, by simp [Except.toOption]⟩

theorem outputs_accepts {H : Bytes → Bytes} {version : Nat} (hv : version = 1 ∨ version = 129) {a : Arg} :
    (setOutputsArg a).2 = none ↔ means H version .outputs a ≠ none := by
  cases a with
  | outputs l => simp only [means, setOutputsArg]; rcases hv with rfl | rfl <;> simp
  | none => simp [means, setOutputsArg]
  | int i => by_cases e : i = 0 <;> simp [means, setOutputsArg, hv, e]
  | str s => cases s <;> simp [means, setOutputsArg, hv]
  | bytes s => cases s <;> simp [means, setOutputsArg, hv]
  | bin d => by_cases e : d.value = [] <;> simp [means, setOutputsArg, hv, e]
  | dec d =>
    cases d with
    | special => simp [means, setOutputsArg]
    | fin d => by_cases e : d.coef = 0 <;> simp [means, setOutputsArg, hv, e]
  | output co => simp [means, setOutputsArg, hv]
  | _ => simp [means, setOutputsArg]

/-- **C115.** Exactly what has a meaning is accepted. -/
theorem C115_accepts (H : Bytes → Bytes) (t : Tx) (f : Field) (hf : f ∈ fieldsOf t.version) (a : Arg) (_ho : ¬ Odd (f, a)) :
    ∃ t' e, t.assign H f a = some (t', e) ∧ (e = none ↔ means H t.version f a ≠ none) := by
  cases t <;> cases f <;> simp only [Tx.version] at hf <;> first
    | exact absurd hf (by decide)
    | exact store_accepts (fee_shown a)
    | exact store_accepts (value_shown a)
    | exact store_accepts (sig_shown a)
    | exact store_accepts (erc_shown 20 (by decide) a)
    | exact store_accepts (erc_shown 32 (by decide) a)
    | exact store_accepts data_means
    | exact store_accepts (months_means (version := 144))
    | exact store_accepts (months_means (version := 145))
    | exact store_accepts (key_means.trans (by cases a <;> rfl))
    | exact store_accepts (bot_means.trans (by cases a <;> rfl))
    | exact store_accepts (cond_means.trans (by cases a <;> rfl))
    | exact store_accepts (ful_means.trans (by cases a <;> rfl))
    | exact store_accepts address_means
    | exact store_accepts registration_means
    | exact store_accepts (refund_means (version := 144) (by decide))
    | exact store_accepts (refund_means (version := 145) (by decide))
    | exact store_accepts (refund_means (version := 146) (by decide))
    | exact store_accepts (refund_means (version := 208) (by decide))
    | exact store_accepts (refund_means (version := 210) (by decide))
    | exact ⟨_, _, rfl, outputs_accepts (version := 1) (.inl rfl)⟩
    | exact ⟨_, _, rfl, outputs_accepts (version := 129) (.inr rfl)⟩

/-! ## The fees paid, and other things derived from the properties -/

theorem fee_step {H : Bytes → Bytes} {t : Tx} (ht : .fee ∈ fieldsOf t.version) (f : Field) (a : Arg) :
    (after t (t.assign H f a)).minerFees = (if f = .fee then (match setFee a with
      | .ok x => x.toList
      | .error _ => t.minerFees) else t.minerFees) := by
  have key : ∀ {α : Type} (r : Res α) (put : α → Tx), (∀ x, (put x).minerFees = t.minerFees) → (after t (store t r put)).minerFees = t.minerFees := by
    intro α r put h
    cases r with
    | ok x => exact h x
    | error e => rfl
  cases t <;> simp only [Tx.version] at ht <;> first
    | exact absurd ht (by decide)
    | (cases f <;> simp only [reduceCtorEq, if_false, if_true] <;> first
        | rfl
        | exact key _ _ fun _ => rfl
        | (simp only [Tx.assign]; cases setFee a <;> rfl))

/-- The fees of one fee that was not refused. -/
def feeList (a : Arg) (c : Currency) : List Currency :=
  match a with
  | Arg.none => []
  | _ => [c]

theorem setFee_ok {a : Arg} {x : Option Currency} (h : setFee a = .ok x) : amountArg a = some (feeOr x) ∧ x.toList = feeList a (feeOr x) := by
  refine ⟨by rw [← setFee_amount, h]; rfl, ?_⟩
  cases a with
  | none => cases h; rfl
  | _ => obtain ⟨c, -, h⟩ := bind_ok h; cases h; rfl

theorem setFee_error {a : Arg} {e : Err} (h : setFee a = .error e) : amountArg a = none := by rw [← setFee_amount, h]; rfl

theorem assign_version {H : Bytes → Bytes} {t : Tx} {f : Field} {a : Arg} : (after t (t.assign H f a)).version = t.version := by
  have key : ∀ {α : Type} (r : Res α) (put : α → Tx), (∀ x, (put x).version = t.version) → (after t (store t r put)).version = t.version := by
    intro α r put h
    cases r with
    | ok x => exact h x
    | error e => rfl
  cases t <;> cases f <;> first
    | rfl
    | exact key _ _ fun _ => rfl

/-- The fees after a history that starts with `d`. -/
def feesFrom (d : List Currency) (l : List (Field × Arg)) : List Currency :=
  match (l.filterMap fun x => if x.1 = .fee then (amountArg x.2).map fun c => (x.2, c) else none).getLast? with
  | none => d
  | some (Arg.none, _) => []
  | some (_, c) => [c]

theorem fees_run {H : Bytes → Bytes} : ∀ (l : List (Field × Arg)) (t : Tx), .fee ∈ fieldsOf t.version →
    (t.assignAll H l).minerFees = feesFrom t.minerFees l
  | [], _, _ => rfl
  | x :: l, t, ht => by
    have hs := fee_step (H := H) ht x.1 x.2
    rw [assignAll_after, fees_run l _ (by rw [assign_version]; exact ht), hs]
    by_cases e : x.1 = .fee
    · rw [if_pos e]
      cases hf : setFee x.2 with
      | error er =>
        simp only [feesFrom, List.filterMap_cons, e, if_true, setFee_error hf, Option.map_none]
      | ok c =>
        obtain ⟨h1, h2⟩ := setFee_ok hf
        simp only [feesFrom, List.filterMap_cons, e, if_true, h1, Option.map_some]
        cases hl : (l.filterMap fun x => if x.1 = .fee then (amountArg x.2).map fun c => (x.2, c) else none) with
        | nil =>
          simp only [List.getLast?_nil, List.getLast?_singleton]
          rw [h2]
          unfold feeList
          cases x.2 <;> rfl
        | cons p q =>
          rw [List.getLast?_cons_cons]
          cases hq : (p :: q).getLast? with
          | none => simp at hq
          | some w =>
            obtain ⟨w1, w2⟩ := w
            cases w1 <;> rfl
    · simp [feesFrom, e]

/-- **C115.** The fees of the transactions with a transaction fee: those of the last fee that was not refused; an explicit zero is a fee,
`None` is not. -/
theorem C115_fees (H : Bytes → Bytes) (nonce : Bytes) (version : Nat) (t : Tx) (ht : Tx.fresh nonce version = some t) (hf : .fee ∈ fieldsOf version)
    (l : List (Field × Arg)) : (t.assignAll H l).minerFees = feesPaid l := by
  obtain ⟨rfl, -⟩ := fresh_read ht
  rw [fees_run l t hf]
  have : t.minerFees = [] := by
    unfold Tx.fresh at ht
    split at ht <;> cases ht <;> first | rfl | (rename_i h; exact absurd hf (by decide))
  rw [this]
  rfl

/-- **C115.** The one output of a coin creation for ERC20 tokens is the value, to the address. -/
theorem C115_created (H : Bytes → Bytes) (nonce : Bytes) (t : Tx) (ht : Tx.fresh nonce 209 = some t) (l : List (Field × Arg)) :
    ∃ c u, shows H 209 .value l = .cur c ∧ shows H 209 .address l = .uh u ∧ (t.assignAll H l).coinOutputs = [⟨c, .unlockHash u, ⟨[]⟩⟩] := by
  have hk : ∀ x ∈ l, Kept H t.version x := by
    cases ht
    intro x _ _ h
    rcases h with h | h <;> cases h
  have hv := assignAll_version l t hk
  obtain ⟨h1, hr⟩ := fresh_read ht
  have hval := assignAll_read l t hk .value (by rw [h1]; decide) _ (hr .value (by decide))
  have hadr := assignAll_read l t hk .address (by rw [h1]; decide) _ (hr .address (by decide))
  rw [h1] at hv hval hadr
  cases ha : t.assignAll H l with
  | v209 v =>
    rw [ha] at hval hadr
    exact ⟨v.value, v.address, (Option.some.inj hval).symm, (Option.some.inj hadr).symm, rfl⟩
  | _ => rw [ha] at hv; cases hv

theorem mintDefined_run (H : Bytes → Bytes) : ∀ (l : List (Field × Arg)) (t : Tx) (d : Bool), t.mintDefined = some d →
    (t.assignAll H l).mintDefined = some (lastFulfilled d l)
  | [], _, _, h => h
  | (f, a) :: l, t, d, h => by
    rw [assignAll_after]
    cases t with
    | v128 v =>
      cases f
      case mintFulfillment => cases a <;> exact mintDefined_run H l _ _ (by first | exact h | rfl)
      all_goals
        refine mintDefined_run H l _ d ?_
        first
          | exact h
          | (simp only [Tx.assign, store]; cases setDataArg a <;> exact h)
          | (simp only [Tx.assign, store]; cases setCondArg a <;> exact h)
    | v129 v =>
      cases f
      case mintFulfillment => cases a <;> exact mintDefined_run H l _ _ (by first | exact h | rfl)
      all_goals
        refine mintDefined_run H l _ d ?_
        first
          | exact h
          | (simp only [Tx.assign, store]; cases setDataArg a <;> exact h)
          | (simp only [Tx.assign, store]; cases setCondArg a <;> exact h)
    | _ => cases h

/-- **C115.** `mint_fulfillment_defined()` of a minting transaction tells whether the last fulfillment that was accepted is one: `None` takes it
back, and what is refused does not count. -/
theorem C115_mint_defined (H : Bytes → Bytes) (nonce : Bytes) (version : Nat) (t : Tx) (ht : Tx.fresh nonce version = some t)
    (hv : .mintFulfillment ∈ fieldsOf version) (l : List (Field × Arg)) : (t.assignAll H l).mintDefined = some (lastFulfilled false l) := by
  refine mintDefined_run H l t false ?_
  unfold Tx.fresh at ht
  split at ht <;> cases ht <;> first | rfl | exact absurd hv (by decide)

example : lastFulfilled false [(.mintFulfillment, .ful (.single .default none)), (.mintFulfillment, .int 4), (.data, .none)] = true := rfl
example : lastFulfilled false [(.mintFulfillment, .ful (.single .default none)), (.mintFulfillment, .none)] = false := rfl

/-! ## Examples -/

/-- A registration: refused months, a fee, a key, the fee taken back, outputs. -/
def assigning : List (Field × Arg) :=
  [(.fee, .str "1.5 TFT".toList), (.months, .int 12), (.months, .int 25), (.key, .key key1), (.key, .int 3), (.fee, .int (-1)), (.botid, .int 5),
   (.outputs, .outputs [⟨⟨none⟩, .nil, ⟨[]⟩⟩, ⟨⟨none⟩, .nil, ⟨[]⟩⟩]), (.signature, .bytes (List.replicate 64 7)), (.signature, .bytes [1])]
example : ∀ x ∈ assigning, Kept toyHash 144 x ∧ ¬ Odd x := by
  intro x hx
  refine ⟨fun _ h => (by rcases h with h | h <;> cases h), ?_⟩
  rintro ⟨h, h'⟩
  simp only [assigning, List.mem_cons, List.not_mem_nil, or_false] at hx
  rcases hx with rfl | rfl | rfl | rfl | rfl | rfl | rfl | rfl | rfl | rfl <;> simp at h h'
example : shows toyHash 144 .fee assigning = .cur ⟨some ⟨false, 15, -1⟩⟩ ∧ shows toyHash 144 .months assigning = .int 12 ∧
    shows toyHash 144 .key assigning = .key key1 ∧ shows toyHash 144 .outputs assigning = .outs [] ∧
    shows toyHash 144 .signature assigning = .sig ⟨List.replicate 64 7, true⟩ ∧ feesPaid assigning = [⟨some ⟨false, 15, -1⟩⟩] ∧
    feesPaid (assigning ++ [(.fee, .none)]) = [] ∧ feesPaid (assigning ++ [(.fee, .int 0)]) = [⟨some ⟨false, 0, 0⟩⟩] := by decide +kernel
example : shows toyHash 209 .value [(.value, .int 7), (.address, .uh (addrOf key1))] = .cur ⟨some ⟨false, 7, 0⟩⟩ := by decide +kernel
example : ∃ t', (Tx.v144 {}).assign toyHash .months (.int 25) = some (t', some .valueError) := ⟨_, rfl⟩
/-- An explicit list of outputs is accepted. -/
example : Kept toyHash 1 (.outputs, .outputs [⟨⟨none⟩, .nil, ⟨[]⟩⟩]) := fun _ _ => by simp [means]

end TF.Props
