import Verif.Props.Signing
import Verif.Props.Primitive
/-!
# Properties C37, C42, C44–C47, C72: dispatch, builders, fees, limits
-/
namespace TF.Props
open TF Spec

/-! ## C37 -/

/-- **C37**. If `from_json` returns a transaction, it was given a dict whose `version` is one of the supported versions, and the class
is the one of that version (legacy version 0 giving a legacy version-1 transaction). -/
theorem C37_dispatch (L : IpLib) (H : Bytes → Bytes) (j : Json) (t : Tx) (h : Tx.fromJson L H j = .ok t) :
    ∃ (fields : List (String × Json)) (v : Json) (i : Int), j = .obj fields ∧ jget fields "version" = some v ∧ v.asInt? = some i ∧
      i ∈ supportedVersions ∧ (t.version : Int) = (if i = 0 then 1 else i) ∧ (i = 0 ↔ IsLegacy t) := by
  cases j with
  | obj fields =>
    cases hv : jget fields "version" with
    | none =>
      simp [Tx.fromJson, Json.getD, Json.get?, bind, Except.bind, hv, pure, Except.pure, Json.asInt?, throw, throwThe,
        MonadExceptOf.throw] at h
    | some v =>
      have hver : (Json.obj fields).getD "version" (.int (-1)) = .ok v := by
        simp [Json.getD, Json.get?, bind, Except.bind, hv, pure, Except.pure]
      obtain ⟨d, hd⟩ : ∃ d, (Json.obj fields).getD "data" (.obj []) = .ok d := by
        cases hd : jget fields "data" <;> simp [Json.getD, Json.get?, bind, Except.bind, hd, pure, Except.pure]
      simp only [Tx.fromJson, hver, hd, bind, Except.bind, pure, Except.pure] at h
      refine ⟨fields, v, ?_⟩
      cases hi : v.asInt? with
      | none => simp [hi, throw, throwThe, MonadExceptOf.throw] at h
      | some i =>
        refine ⟨i, rfl, hv, rfl, ?_⟩
        rw [hi] at h
        have leg : ∀ d t, TxV1.ofJson H d = .ok t → t.legacy = false := by
          intro d t ht
          simp only [TxV1.ofJson, bind, Except.bind, pure, Except.pure] at ht
          repeat' (split at ht)
          all_goals first | (cases ht; done) | (cases ht; rfl)
        have leg0 : ∀ t, TxV1.legacyOfJson H (.obj fields) = .ok t → t.legacy = true := by
          intro t ht
          simp only [TxV1.legacyOfJson, bind, Except.bind, pure, Except.pure, throw, throwThe, MonadExceptOf.throw] at ht
          repeat' (split at ht)
          all_goals first | (cases ht; done) | (cases ht; rfl)
        have fin : ∀ {α : Type} {r : Res α} {C : α → Tx} {t : Tx}, (Except.bind r fun v => Except.ok (C v)) = .ok t → ∃ x, r = .ok x ∧ t = C x := by
          intro α r C t h
          cases r with
          | error e => cases h
          | ok x => cases h; exact ⟨x, rfl, rfl⟩
        split at h
        · rename_i he; cases he; obtain ⟨x, hx, rfl⟩ := fin (r := _) h
          have := leg _ _ hx
          exact ⟨by decide, rfl, by simp [IsLegacy, this]⟩
        iterate 8
          · rename_i he; cases he; obtain ⟨x, hx, rfl⟩ := fin (r := _) h
            exact ⟨by decide, rfl, by simp [IsLegacy]⟩
        · rename_i he; cases he; obtain ⟨x, hx, rfl⟩ := fin (r := _) h
          have := leg0 _ hx
          exact ⟨by decide, rfl, by simp [IsLegacy, this]⟩
        · cases h
  | _ => simp [Tx.fromJson] at h

/-- **C37** (refusal). Anything that is not a dict is refused with `TypeError`, and a dict without a supported version number with
`UnknownTransansactionVersion`. -/
theorem C37_refuses (L : IpLib) (H : Bytes → Bytes) :
    (∀ j : Json, (∀ fields, j ≠ .obj fields) → Tx.fromJson L H j = .error .typeError) ∧
    (∀ fields : List (String × Json), (∀ v, jget fields "version" = some v → ∀ i ∈ supportedVersions, v.asInt? ≠ some i) →
      Tx.fromJson L H (.obj fields) = .error .unknownTransactionVersion) := by
  constructor
  · intro j hj
    cases j with
    | obj f => exact absurd rfl (hj f)
    | _ => rfl
  · intro fields h
    simp only [Tx.fromJson, Json.getD, Json.get?, bind, Except.bind]
    cases hv : jget fields "version" with
    | none => simp [pure, Except.pure, Json.asInt?, throw, throwThe, MonadExceptOf.throw]
    | some v =>
      have hn := h v hv
      simp only [pure, Except.pure]
      split
      all_goals first | rfl | (rename_i he; exact absurd he (hn _ (by decide)))

example : supportedVersions.all (fun i => i ∈ ([0, 1, 144, 145, 146, 208, 209, 210] : List Int) →
    (Tx.fromJson ⟨fun _ => none, fun b => toHex b⟩ toyHash (.obj [("version", .int i), ("data", .obj [])])).toOption.isSome) = true := by
  decide +kernel

/-! ## C42 -/

/-- The transaction after a history of `tx.data = …` assignments, accepted or refused. -/
def dataRun (t : Tx) (es : List DataArg) : Tx := es.foldl (fun t e => (t.setData e).1) t

/-- **C42**. After any history of assignments to `data` a transaction that started with at most 83 bytes of arbitrary data has at most
83 bytes of it; an assignment that raises leaves the transaction as it was, and one of more than 83 bytes raises. -/
theorem C42_data_limit (t : Tx) (h : t.data.length ≤ 83) (es : List DataArg) :
    (dataRun t es).data.length ≤ 83 ∧
    (∀ v e, (t.setData v).2 = some e → (t.setData v).1 = t) ∧
    (∀ b : Bytes, b.length > 83 → (t.setData (.bytes b)).2 ≠ none ∧ ∀ s : Str, utf8 s = b → (t.setData (.str s)).2 ≠ none) ∧
    (∀ b : Bytes, b.length ≤ 83 → (t.version = 1 ∨ t.version = 128 ∨ t.version = 129) →
      (t.setData (.bytes b)).2 = none ∧ (t.setData (.bytes b)).1.data = b) := by
  have hset : ∀ v b, setData v = .ok b → b.length ≤ 83 := by
    intro v b hb
    cases v <;> simp only [setData] at hb
    · cases hb; decide
    all_goals first | (cases hb; done) | (split at hb <;> cases hb; omega)
  have step : ∀ (t : Tx) v, t.data.length ≤ 83 → (t.setData v).1.data.length ≤ 83 := by
    intro t v ht
    cases hs : setData v with
    | error e => cases t <;> simp_all [Tx.setData, Tx.data]
    | ok b =>
      have := hset v b hs
      cases t <;> simp_all [Tx.setData, Tx.data]
  refine ⟨?_, ?_, ?_, ?_⟩
  · unfold dataRun
    induction es generalizing t with
    | nil => exact h
    | cons e es ih => exact ih _ (step t e h)
  · intro v e he
    cases hs : setData v with
    | error e => cases t <;> simp_all [Tx.setData]
    | ok b => cases t <;> simp_all [Tx.setData]
  · intro b hb
    have h1 : setData (.bytes b) = .error .valueError := by simp [setData, hb]
    refine ⟨by cases t <;> simp [Tx.setData, h1], ?_⟩
    intro s hs
    have h2 : setData (.str s) = .error .valueError := by simp [setData, hs, hb]
    cases t <;> simp [Tx.setData, h2]
  · intro b hb hv
    have h1 : setData (.bytes b) = .ok b := by simp [setData]; omega
    cases t <;> simp_all [Tx.setData, Tx.data, Tx.version]

example : ((dataRun demoTx [.bytes (List.replicate 83 1), .bytes (List.replicate 84 2), .str "x".toList, .other]).data) = [120] := by
  decide +kernel

/-! ## C46 -/

/-- What a reader of the months-and-flags byte recovers: months, has addresses, has names, has refund. -/
def readMonthsAndFlags (b : UInt8) : Nat × Bool × Bool × Bool :=
  (b.toNat % 32, decide (b.toNat / 32 % 2 = 1), decide (b.toNat / 64 % 2 = 1), decide (b.toNat / 128 % 2 = 1))

/-- What a reader of a packed count byte recovers. -/
def readCounts (b : UInt8) : Nat × Nat := (b.toNat % 16, b.toNat / 16)

/-- **C46**. The header byte of a 3Bot transaction is written exactly when the number of months is between 0 and 24, and determines the
months and the three flags; the packed count byte determines both counts whenever each is at most 15 (the code's limits are 10 and 5). -/
theorem C46_header_bytes (m : Int) (a n r : Bool) (c d : Nat) :
    (∀ x, (monthsAndFlags m a n r).toRes = .ok x → ∃ b, x = [b] ∧ readMonthsAndFlags b = (m.toNat, a, n, r) ∧ 0 ≤ m ∧ m ≤ 24) ∧
    (0 ≤ m → m ≤ 24 → ∃ x, (monthsAndFlags m a n r).toRes = .ok x) ∧
    (c ≤ 15 → d ≤ 15 → ∃ b, packedCounts c d = .ok [b] ∧ readCounts b = (c, d)) := by
  have main : 0 ≤ m → m ≤ 24 → ∃ b, monthsAndFlags m a n r = .ok [b] ∧ readMonthsAndFlags b = (m.toNat, a, n, r) := by
    intro h0 h1
    obtain ⟨k, rfl⟩ : ∃ k : Nat, m = k := ⟨m.toNat, by omega⟩
    have hk : k < 25 := by omega
    have tab : ∀ k < 25, ∀ a n r : Bool, ∃ b : Fin 256, monthsAndFlags (k : Nat) a n r = .ok [UInt8.ofNat b] ∧
        readMonthsAndFlags (UInt8.ofNat b) = (k, a, n, r) := by
      have tab' : ∀ k < 25, ∀ a n r : Bool,
          (let b := k + (if a then 32 else 0) + (if n then 64 else 0) + (if r then 128 else 0)
           monthsAndFlags (k : Nat) a n r = .ok [UInt8.ofNat b] ∧ readMonthsAndFlags (UInt8.ofNat b) = (k, a, n, r) ∧ b < 256) := by
        decide +kernel
      intro k hk a n r
      obtain ⟨h1, h2, h3⟩ := tab' k hk a n r
      exact ⟨⟨_, h3⟩, h1, h2⟩
    obtain ⟨b, h1, h2⟩ := tab k hk a n r
    exact ⟨_, h1, by simpa using h2⟩
  refine ⟨?_, ?_, ?_⟩
  · intro x hx
    have hm : 0 ≤ m ∧ m ≤ 24 := by
      by_cases h : m < 0 ∨ m > 24
      · simp [monthsAndFlags, h, Out.raise, Out.toRes] at hx
      · omega
    obtain ⟨b, h1, h2⟩ := main hm.1 hm.2
    rw [h1] at hx
    simp only [Out.ok_toRes, Except.ok.injEq] at hx
    exact ⟨b, hx.symm, h2, hm⟩
  · intro h0 h1
    obtain ⟨b, h, -⟩ := main h0 h1
    exact ⟨[b], by rw [h]; rfl⟩
  · intro hc hd
    unfold packedCounts
    rw [or_shl c d 4 (by omega)]
    refine ⟨UInt8.ofNat (c + d * 2^4), ?_, ?_⟩
    · unfold rivInt8
      rw [rivInt_ok (by omega) (by simp; omega)]
      simp only [toBytesLE, Out.ok, Int.toNat_natCast]
      congr 2
      apply UInt8.toNat_inj.1
      simp
    · unfold readCounts
      have : (UInt8.ofNat (c + d * 2^4)).toNat = c + d * 16 := by simp; omega
      rw [this]
      simp only [Prod.mk.injEq]; omega

example : monthsAndFlags 24 true false true = .ok [184] ∧ packedCounts 10 5 = .ok [90] := by decide +kernel

/-! ## C47 -/

/-- A registration / update / name transfer after a history of list operations, accepted or refused. -/
def regRun (L : IpLib) (t : TxV144) (es : List BotListOp) : TxV144 := es.foldl (fun t e => (t.listOp L e).1) t
@[inherit_doc regRun] def updRun (L : IpLib) (t : TxV145) (es : List BotListOp) : TxV145 := es.foldl (fun t e => (t.listOp L e).1) t
@[inherit_doc regRun] def trfRun (t : TxV146) (es : List BotListOp) : TxV146 := es.foldl (fun t e => (t.listOp e).1) t

theorem addLimited_le {α β : Type} (max : Nat) (mk : α → Res β) (l : List β) (x : α) (h : l.length ≤ max) :
    (addLimited max mk l x).1.length ≤ max := by
  unfold addLimited
  split
  · exact h
  · split
    · simp; omega
    · exact h

theorem addAllLimited_le {α β : Type} (max : Nat) (mk : α → Res β) (xs : List α) : ∀ l : List β, l.length ≤ max →
    (addAllLimited max mk l xs).1.length ≤ max := by
  induction xs with
  | nil => intro l h; exact h
  | cons x xs ih =>
    intro l h
    have := addLimited_le max mk l x h
    simp only [addAllLimited]
    split
    · rename_i heq; rw [heq] at this; exact ih _ this
    · rename_i heq; rw [heq] at this; exact this

/-- **C47** (what holds). Starting from a new transaction, whatever is added or assigned, a registration and an update never hold more
than ten addresses (to add, to remove) or five names (to add, to remove), and a name transfer never more than five names. -/
theorem C47_limits_partial (L : IpLib) (es : List BotListOp) :
    ((regRun L {} es).addresses.length ≤ 10 ∧ (regRun L {} es).names.length ≤ 5) ∧
    ((updRun L {} es).addrsAdd.length ≤ 10 ∧ (updRun L {} es).addrsRemove.length ≤ 10 ∧ (updRun L {} es).namesAdd.length ≤ 5 ∧
      (updRun L {} es).namesRemove.length ≤ 5) ∧
    (trfRun {} es).names.length ≤ 5 := by
  refine ⟨?_, ?_, ?_⟩
  · suffices h : ∀ t : TxV144, t.addresses.length ≤ 10 ∧ t.names.length ≤ 5 →
        (regRun L t es).addresses.length ≤ 10 ∧ (regRun L t es).names.length ≤ 5 from h {} (by decide)
    induction es with
    | nil => intro t h; exact h
    | cons e es ih =>
      intro t ht
      apply ih
      cases e <;> simp only [TxV144.listOp] <;>
        first
        | exact ht
        | exact ⟨addLimited_le _ _ _ _ ht.1, ht.2⟩
        | exact ⟨ht.1, addLimited_le _ _ _ _ ht.2⟩
        | exact ⟨addAllLimited_le _ _ _ _ (by simp), ht.2⟩
        | exact ⟨ht.1, addAllLimited_le _ _ _ _ (by simp)⟩
  · suffices h : ∀ t : TxV145, (t.addrsAdd.length ≤ 10 ∧ t.addrsRemove.length ≤ 10 ∧ t.namesAdd.length ≤ 5 ∧ t.namesRemove.length ≤ 5) →
        ((updRun L t es).addrsAdd.length ≤ 10 ∧ (updRun L t es).addrsRemove.length ≤ 10 ∧ (updRun L t es).namesAdd.length ≤ 5 ∧
          (updRun L t es).namesRemove.length ≤ 5) from h {} (by decide)
    induction es with
    | nil => intro t h; exact h
    | cons e es ih =>
      intro t ht
      apply ih
      cases e <;> simp only [TxV145.listOp] <;>
        first
        | exact ⟨addLimited_le _ _ _ _ ht.1, ht.2⟩
        | exact ⟨ht.1, addLimited_le _ _ _ _ ht.2.1, ht.2.2⟩
        | exact ⟨ht.1, ht.2.1, addLimited_le _ _ _ _ ht.2.2.1, ht.2.2.2⟩
        | exact ⟨ht.1, ht.2.1, ht.2.2.1, addLimited_le _ _ _ _ ht.2.2.2⟩
        | exact ⟨addAllLimited_le _ _ _ _ (by simp), ht.2⟩
        | exact ⟨ht.1, addAllLimited_le _ _ _ _ (by simp), ht.2.2⟩
        | exact ⟨ht.1, ht.2.1, addAllLimited_le _ _ _ _ (by simp), ht.2.2.2⟩
        | exact ⟨ht.1, ht.2.1, ht.2.2.1, addAllLimited_le _ _ _ _ (by simp)⟩
  · suffices h : ∀ t : TxV146, t.names.length ≤ 5 → (trfRun t es).names.length ≤ 5 from h {} (by decide)
    induction es with
    | nil => intro t h; exact h
    | cons e es ih =>
      intro t ht
      apply ih
      cases e <;> simp only [TxV146.listOp] <;>
        first
        | exact ht
        | exact addLimited_le _ _ _ _ ht
        | exact addAllLimited_le _ _ _ _ ht

/-- **C47** (assignment). Assigning names (addresses) that are all accepted to a registration replaces the previous ones. -/
theorem C47_assignment_replaces (L : IpLib) (t : TxV144) (l : List NameArg) (ns : List BotName) (h : l.mapM BotName.new = .ok ns)
    (hl : l.length ≤ 5) : t.listOp L (.namesSet l) = ({ t with names := ns }, none) := by
  have key : ∀ (l : List NameArg) (ns acc : List BotName), l.mapM BotName.new = .ok ns → acc.length + l.length ≤ 5 →
      addAllLimited maxNames BotName.new acc l = (acc ++ ns, none) := by
    intro l
    induction l with
    | nil => intro ns acc h _; cases h; simp [addAllLimited]
    | cons x l ih =>
      intro ns acc h hl
      rw [List.mapM_cons] at h
      cases hx : BotName.new x with
      | error e => simp [hx, bind, Except.bind] at h
      | ok y =>
        cases hr : l.mapM BotName.new with
        | error e => simp [hx, hr, bind, Except.bind] at h
        | ok ys =>
          simp [hx, hr, bind, Except.bind, pure, Except.pure] at h
          subst h
          simp only [List.length_cons] at hl
          have : ¬ acc.length = maxNames := by unfold maxNames; omega
          simp only [addAllLimited, addLimited, if_neg this, hx]
          rw [ih ys (acc ++ [y]) hr (by simp; omega)]
          simp
  simp only [TxV144.listOp, key l ns [] h (by simpa using hl)]
  simp

/-- **C47** (finding). On a name transfer, assigning `names` does not replace the names but appends to them; and the limits are not
checked when a transaction is read from JSON: eleven addresses and six names are accepted. -/
theorem C47_limits_false :
    ((trfRun {} [.namesSet [.str "alpha".toList], .namesSet [.str "bravo".toList]]).names.map (·.value) =
      ["alpha".toList, "bravo".toList]) ∧
    ∃ t, Tx.fromJson ⟨fun _ => none, fun b => toHex b⟩ toyHash (.obj [("version", .int 144), ("data", .obj [
        ("names", .arr (List.replicate 6 (.str "alpha".toList))), ("addresses", .arr (List.replicate 11 (.str "example.com".toList)))])])
      = .ok (.v144 t) ∧ t.names.length = 6 ∧ t.addresses.length = 11 := by
  refine ⟨by decide +kernel, ?_⟩
  refine ⟨{ names := List.replicate 6 ⟨"alpha".toList⟩, addresses := List.replicate 11 ⟨.hostname, utf8 "example.com".toList⟩ }, ?_, ?_, ?_⟩
  all_goals decide +kernel

example : (regRun ⟨fun _ => none, fun b => toHex b⟩ {} (List.replicate 7 (.nameAdd (.str "alpha".toList)))).names.length = 5 := by
  decide +kernel

/-! ## C44, C45 -/

/-- The price of `m` months in smallest units (10^-9 TFT): 10 TFT a month, 30% off from 12 months, 50% off from 24. -/
def monthlyPrice (m : Nat) : Nat :=
  10^9 * (if m < 12 then 10 * m else if m < 24 then 7 * m else 5 * m)

theorem mul_int (a : Currency) (ha : GoodCurrency a) (n : Nat) (h : a.value.coef * n < 10^28) :
    a.mul (.int n) = .ok ⟨some ⟨false, a.value.coef * n, a.value.exp⟩⟩ := by
  have h1 : Currency.set (.int n) = .ok ⟨some ⟨false, n, 0⟩⟩ := by
    have : Dec.ofInt (n : Int) = ⟨false, n, 0⟩ := by simp [Dec.ofInt]
    simp only [Currency.set, this]
    exact checkDec_ok ⟨rfl, by simp⟩
  simp only [Currency.mul, COperand.asCurrency, h1, bind, Except.bind, Currency.value, Option.getD_some]
  have hm : (a.val.getD ⟨false, 0, 0⟩).mul ⟨false, n, 0⟩ = ⟨false, a.value.coef * n, a.value.exp⟩ := by
    have hn := ha.1
    unfold Dec.mul
    rw [decFix_of_lt (by exact h)]
    simp only [Currency.value] at hn
    simp [Currency.value, hn]
  rw [hm]
  exact checkDec_ok ⟨rfl, ha.2⟩

theorem mul_tenth (a : Currency) (ha : GoodCurrency a) (he : a.value.exp = 0) (r : Str) (k : Nat) (hr : parseDec r = some (.fin ⟨false, k, -1⟩))
    (h : a.value.coef * k < 10^28) : a.mul (.float r) = .ok ⟨some ⟨false, a.value.coef * k, -1⟩⟩ := by
  have h1 : Currency.set (.dec (.fin ⟨false, k, -1⟩)) = .ok ⟨some ⟨false, k, -1⟩⟩ := by
    simp only [Currency.set]; exact checkDec_ok ⟨rfl, by simp⟩
  simp only [Currency.mul, COperand.asCurrency, hr, h1, bind, Except.bind]
  have hm : a.value.mul (Currency.value ⟨some ⟨false, k, -1⟩⟩) = ⟨false, a.value.coef * k, -1⟩ := by
    unfold Dec.mul Currency.value
    simp only [Currency.value] at h
    rw [decFix_of_lt (by exact h)]
    have hn := ha.1
    simp only [Currency.value] at hn he
    simp [hn, he]
  rw [hm]
  simp only [Currency.set]
  exact checkDec_ok (d := ⟨false, a.value.coef * k, -1⟩) ⟨rfl, by simp⟩

theorem monthlyFees_price (m : Nat) (hm : m < 10^20) :
    ∃ c, monthlyFees m = .ok c ∧ GoodCurrency c ∧ amount c = monthlyPrice m := by
  have hg : GoodCurrency feeMonthly := ⟨rfl, by decide⟩
  have h1 := mul_int feeMonthly hg m (by simp only [feeMonthly, Currency.value, Option.getD_some]; omega)
  simp only [feeMonthly, Currency.value, Option.getD_some] at h1
  have hg2 : GoodCurrency ⟨some ⟨false, 10 * m, 0⟩⟩ := ⟨rfl, by simp [Currency.value]⟩
  simp only [monthlyFees, feeMonthly, h1, bind, Except.bind]
  by_cases h12 : m < 12
  · rw [if_pos (by omega)]
    refine ⟨_, rfl, hg2, ?_⟩
    simp only [amount, units, Currency.value, Option.getD_some, monthlyPrice, if_pos h12]
    simp; omega
  · rw [if_neg (by omega)]
    by_cases h24 : m < 24
    · rw [if_pos (by omega)]
      refine ⟨_, mul_tenth _ hg2 rfl _ 7 (by decide) (by simp only [Currency.value, Option.getD_some]; omega), ⟨rfl, by simp [Currency.value]⟩, ?_⟩
      simp only [amount, units, Currency.value, Option.getD_some, monthlyPrice, if_neg h12, if_pos h24]
      simp; omega
    · rw [if_neg (by omega)]
      refine ⟨_, mul_tenth _ hg2 rfl _ 5 (by decide) (by simp only [Currency.value, Option.getD_some]; omega), ⟨rfl, by simp [Currency.value]⟩, ?_⟩
      simp only [amount, units, Currency.value, Option.getD_some, monthlyPrice, if_neg h12, if_neg h24]
      simp; omega

theorem monthlyPrice_le (m : Nat) : monthlyPrice m ≤ 10^10 * m := by
  unfold monthlyPrice
  split
  · omega
  · split <;> omega

theorem monthlyFees_negative (m : Int) (h : m < 0) : monthlyFees m = .error .nameError := by
  have : Currency.set (.int m) = .error .nameError := by
    simp only [Currency.set, Dec.ofInt, Currency.checkDec]
    simp [h]
  simp [monthlyFees, Currency.mul, COperand.asCurrency, this, bind, Except.bind]

theorem good_add {a b : Currency} (ha : GoodCurrency a) (hb : GoodCurrency b) (h : amount a + amount b < 10^28) :
    ∃ c, a.add (.cur b) = .ok c ∧ GoodCurrency c ∧ amount c = amount a + amount b := by
  obtain ⟨c, h1, h2⟩ := (C15_add_sub_exact_partial a b ha hb).1 h
  exact ⟨c, h1, add_good h1, h2⟩

theorem nameFees (n : Nat) (hn : n < 10^15) : ∃ c, feeName.mul (.int n) = .ok c ∧ GoodCurrency c ∧ amount c = 50 * n * 10^9 := by
  have hg : GoodCurrency feeName := ⟨rfl, by decide⟩
  have h1 := mul_int feeName hg n (by simp only [feeName, Currency.value, Option.getD_some]; omega)
  simp only [feeName, Currency.value, Option.getD_some] at h1
  exact ⟨_, h1, ⟨rfl, by simp [Currency.value]⟩, by simp [amount, units, Currency.value]⟩

/-- **C44**. The fee required of a registration is 90 TFT, plus the price of its months, plus 50 TFT per name beyond the first (up to
10^15 months and names; the setters allow 24 and 5). For a negative number of months, which only JSON can give, computing it raises. -/
theorem C44_registration_fee (t : TxV144) :
    (0 ≤ t.months → t.months < 10^15 → t.names.length < 10^15 →
      ∃ c, t.requiredFees = .ok c ∧ GoodCurrency c ∧
        amount c = 90 * 10^9 + monthlyPrice t.months.toNat + 50 * 10^9 * (t.names.length - 1)) ∧
    (t.months < 0 → t.requiredFees = .error .nameError) := by
  have h0 : feeRegistration.add (.int 0) = .ok feeRegistration := by decide +kernel
  have hgr : GoodCurrency feeRegistration := ⟨rfl, by decide⟩
  have har : amount feeRegistration = 90 * 10^9 := by decide
  constructor
  · intro hm hm' hn
    obtain ⟨k, hk⟩ : ∃ k : Nat, t.months = k := ⟨t.months.toNat, by omega⟩
    obtain ⟨c1, e1, g1, a1⟩ := monthlyFees_price k (by omega)
    have le1 := monthlyPrice_le k
    obtain ⟨c2, e2, g2, a2⟩ := good_add hgr g1 (by rw [har, a1]; omega)
    simp only [TxV144.requiredFees, h0, hk, e1, bind, Except.bind, e2, Int.toNat_natCast]
    by_cases hl : t.names.length > 1
    · rw [if_pos hl]
      obtain ⟨c3, e3, g3, a3⟩ := nameFees (t.names.length - 1) (by omega)
      obtain ⟨c4, e4, g4, a4⟩ := good_add g2 g3 (by rw [a2, har, a1, a3]; omega)
      refine ⟨c4, by simp only [e3, e4], g4, ?_⟩
      rw [a4, a2, har, a1, a3]; omega
    · rw [if_neg hl]
      refine ⟨c2, rfl, g2, ?_⟩
      rw [a2, har, a1]; omega
  · intro hm
    simp [TxV144.requiredFees, h0, monthlyFees_negative _ hm, bind, Except.bind]

example : (TxV144.requiredFees { months := 12, names := [⟨"alpha".toList⟩, ⟨"bravo".toList⟩] }) = .ok ⟨some ⟨false, 2240, -1⟩⟩ := by
  decide +kernel

/-- **C45**. The fee required of a record update is the price of the months added, plus 20 TFT if any address is added or removed, plus
50 TFT per added name; a name transfer costs 50 TFT per name. -/
theorem C45_update_fee (t : TxV145) (s : TxV146) (hm' : t.months < 10^15) (hn : t.namesAdd.length < 10^15) (hs : s.names.length < 10^15) :
    (∃ c, t.requiredFees = .ok c ∧ GoodCurrency c ∧
      amount c = monthlyPrice t.months.toNat + (if t.addrsAdd = [] ∧ t.addrsRemove = [] then 0 else 20 * 10^9) +
        50 * 10^9 * t.namesAdd.length) ∧
    (∃ c, s.requiredFees = .ok c ∧ GoodCurrency c ∧ amount c = 50 * 10^9 * s.names.length) := by
  constructor
  · have h0 : Currency.set (.int 0) = .ok ⟨some ⟨false, 0, 0⟩⟩ := by decide
    have g0 : GoodCurrency ⟨some ⟨false, 0, 0⟩⟩ := ⟨rfl, by decide⟩
    obtain ⟨c1, e1, g1, a1⟩ : ∃ c, updateMonths t.months ⟨some ⟨false, 0, 0⟩⟩ = .ok c ∧ GoodCurrency c ∧ amount c = monthlyPrice t.months.toNat := by
      by_cases hp : t.months > 0
      · obtain ⟨k, hk⟩ : ∃ k : Nat, t.months = k := ⟨t.months.toNat, by omega⟩
        obtain ⟨c1, e1, g1, a1⟩ := monthlyFees_price k (by omega)
        have le1 := monthlyPrice_le k
        obtain ⟨c2, e2, g2, a2⟩ := good_add g0 g1 (by rw [a1]; simp [amount, units, Currency.value]; omega)
        refine ⟨c2, by unfold updateMonths; rw [if_pos hp, hk]; simp [e1, e2, bind, Except.bind], g2, ?_⟩
        rw [a2, a1, hk]; simp [amount, units, Currency.value]
      · refine ⟨_, by unfold updateMonths; rw [if_neg hp], g0, ?_⟩
        have : t.months.toNat = 0 := by omega
        simp [this, monthlyPrice, amount, units, Currency.value]
    have le1 := monthlyPrice_le t.months.toNat
    obtain ⟨c2, e2, g2, a2⟩ : ∃ c, updateAddresses t.addrsAdd t.addrsRemove c1 = .ok c ∧ GoodCurrency c ∧ amount c = amount c1 + (if t.addrsAdd = [] ∧ t.addrsRemove = [] then 0 else 20 * 10^9) := by
      have ga : GoodCurrency feeAddressUpdate := ⟨rfl, by decide⟩
      have aa : amount feeAddressUpdate = 20 * 10^9 := by decide
      by_cases hp : t.addrsAdd.length > 0 ∨ t.addrsRemove.length > 0
      · obtain ⟨c2, e2, g2, a2⟩ := good_add g1 ga (by rw [a1, aa]; omega)
        refine ⟨c2, by unfold updateAddresses; rw [if_pos hp, e2], g2, ?_⟩
        rw [a2, aa, if_neg]
        rintro ⟨h1, h2⟩
        simp [h1, h2] at hp
      · refine ⟨c1, by unfold updateAddresses; rw [if_neg hp], g1, ?_⟩
        rw [if_pos]; rfl
        exact ⟨List.length_eq_zero_iff.1 (by omega), List.length_eq_zero_iff.1 (by omega)⟩
    have a2' : amount c2 ≤ 10^26 := by rw [a2, a1]; split <;> omega
    have : t.requiredFees = updateNames t.namesAdd c2 := by
      simp only [TxV145.requiredFees, h0, bind, Except.bind, e1, e2]
    rw [this]
    unfold updateNames
    by_cases hl : t.namesAdd.length > 0
    · rw [if_pos hl]
      obtain ⟨c3, e3, g3, a3⟩ := nameFees t.namesAdd.length hn
      obtain ⟨c4, e4, g4, a4⟩ := good_add g2 g3 (by rw [a3]; omega)
      refine ⟨c4, by simp [e3, e4, bind, Except.bind], g4, ?_⟩
      rw [a4, a2, a1, a3]; omega
    · rw [if_neg hl]
      refine ⟨c2, rfl, g2, ?_⟩
      rw [a2, a1]; omega
  · obtain ⟨c, e, g, a⟩ := nameFees s.names.length hs
    exact ⟨c, e, g, by rw [a]; omega⟩

example : (TxV145.requiredFees { months := 24, namesAdd := [⟨"alpha".toList⟩], addrsRemove := [⟨.ipv4, [1, 2, 3, 4]⟩] }).toOption.map amount =
    some (190 * 10^9) := by decide +kernel

/-! ## C72 -/

/-- **C72** (finding). Whatever the transaction, the object its `json()` returns cannot be dumped as JSON text: its `version` is a
`TransactionVersion` object. -/
theorem C72_json_dumps_false (L : IpLib) (H : Bytes → Bytes) (t : Tx) (j : Json) (h : t.json L H = .ok j) : j.serialisable = false := by
  unfold Tx.json at h
  cases hf : t.jsonFields L H with
  | error e => simp [hf, bind, Except.bind] at h
  | ok fields =>
    simp only [hf, bind, Except.bind, pure, Except.pure, Except.ok.injEq] at h
    subst h
    simp [Json.serialisable, Json.serialisable.serialisableFields]

example : ∃ j, (Tx.v1 {}).json ⟨fun _ => none, fun b => toHex b⟩ toyHash = .ok j := ⟨_, rfl⟩

theorem ser_list {α : Type} (f : α → Json) (l : List α) (h : ∀ a, (f a).serialisable = true) :
    Json.serialisable.serialisableList (l.map f) = true := by
  induction l with
  | nil => rfl
  | cons a l ih => simp [Json.serialisable.serialisableList, h a, ih]

theorem ser_cond (H : Bytes → Bytes) (c : Condition) : (c.json H).serialisable = true ∧
    ∀ j, c.jsonData H = some j → j.serialisable = true := by
  have wrap : ∀ (n : Nat) (o : Option Json), (∀ j, o = some j → j.serialisable = true) → (condJson n o).serialisable = true := by
    intro n o ho
    cases o with
    | none => simp [condJson, Json.serialisable, Json.serialisable.serialisableFields]
    | some j =>
      have hj := ho j rfl
      unfold condJson
      simp only
      first
      | (split <;> simp [Json.serialisable, Json.serialisable.serialisableFields, hj])
      | simp [Json.serialisable, Json.serialisable.serialisableFields, hj]
  have main : ∀ c : Condition, ∀ j, c.jsonData H = some j → j.serialisable = true := by
    intro c
    induction c with
    | nil => intro j h; cases h
    | unlockHash u => intro j h; cases h; rfl
    | atomicSwap => intro j h; cases h; rfl
    | lockTime l c ih =>
      intro j h; cases h
      simp [Json.serialisable, Json.serialisable.serialisableFields, wrap _ _ ih]
    | multiSig o n =>
      intro j h; cases h
      simp [Json.serialisable, Json.serialisable.serialisableFields]
      exact ser_list _ _ (fun _ => rfl)
  exact ⟨wrap _ _ (main c), main c⟩

theorem ser_ful (f : Fulfillment) : f.json.serialisable = true := by
  cases f with
  | single => rfl
  | multi ps =>
    have : ∀ p : KeySig, p.json.serialisable = true := fun p => rfl
    simp [Fulfillment.json, Fulfillment.jsonData, Json.serialisable, Json.serialisable.serialisableFields, ser_list _ _ this]
  | swap k s sec => cases sec <;> rfl

/-- **C72** (what holds). Apart from the version object everything in a transaction's `json()` is plain JSON: the data part can be
dumped. -/
theorem C72_json_dumps_partial (L : IpLib) (H : Bytes → Bytes) (t : Tx) (fields : List (String × Json))
    (h : t.jsonFields L H = .ok fields) : (Json.obj fields).serialisable = true := by
  have sci : ∀ ci : CoinInput, ci.json.serialisable = true := by
    intro ci; simp [CoinInput.json, Json.serialisable, Json.serialisable.serialisableFields, ser_ful]
  have ssi : ∀ ci : StakeInput, ci.json.serialisable = true := by
    intro ci; simp [StakeInput.json, Json.serialisable, Json.serialisable.serialisableFields, ser_ful]
  have sco : ∀ co : CoinOutput, (co.json H).serialisable = true := by
    intro ci; simp [CoinOutput.json, Json.serialisable, Json.serialisable.serialisableFields, (ser_cond H _).1]
  have sso : ∀ co : StakeOutput, (co.json H).serialisable = true := by
    intro ci; simp [StakeOutput.json, Json.serialisable, Json.serialisable.serialisableFields, (ser_cond H _).1]
  have sfilter : ∀ (p : String × Json → Bool) (l : List (String × Json)), Json.serialisable.serialisableFields l = true →
      Json.serialisable.serialisableFields (l.filter p) = true := by
    intro p l
    induction l with
    | nil => intro h; exact h
    | cons x l ih =>
      obtain ⟨k, j⟩ := x
      intro h
      simp only [Json.serialisable.serialisableFields, Bool.and_eq_true] at h
      rw [List.filter_cons]
      split
      · simp [Json.serialisable.serialisableFields, h.1, ih h.2]
      · exact ih h.2
  have sapp : ∀ (l l' : List (String × Json)), Json.serialisable.serialisableFields (l ++ l') =
      (Json.serialisable.serialisableFields l && Json.serialisable.serialisableFields l') := by
    intro l l'
    induction l with
    | nil => simp [Json.serialisable.serialisableFields]
    | cons x l ih => obtain ⟨k, j⟩ := x; simp [Json.serialisable.serialisableFields, ih, Bool.and_assoc]
  have sref : ∀ o : Option CoinOutput, Json.serialisable.serialisableFields (refundField H o) = true := by
    intro o; cases o <;> simp [refundField, Json.serialisable.serialisableFields, sco]
  have slf : ∀ {α : Type} (k : String) (f : α → Json) (l : List α), (∀ a, (f a).serialisable = true) →
      Json.serialisable.serialisableFields (listField? k f l) = true := by
    intro α k f l hf
    unfold listField?
    split
    · rfl
    · simp [Json.serialisable.serialisableFields, Json.serialisable, ser_list f l hf]
  have sar : ∀ {α : Type} (k : String) (f : α → Json) (a b : List α), (∀ a, (f a).serialisable = true) →
      Json.serialisable.serialisableFields (addRemoveField k f a b) = true := by
    intro α k f a b hf
    have h1 : Json.serialisable.serialisableFields (listField? "add" f a ++ listField? "remove" f b) = true := by
      rw [sapp, slf _ _ _ hf, slf _ _ _ hf]; rfl
    unfold addRemoveField
    split
    · rfl
    · rename_i l hl
      simp [Json.serialisable.serialisableFields, Json.serialisable, h1]
  have sn : ∀ a, (netJson L a).serialisable = true := fun _ => rfl
  have sm : ∀ a, (nameJson a).serialisable = true := fun _ => rfl
  have sc : ∀ l : List Currency, Json.serialisable.serialisableList (l.map fun c => Json.str c.json) = true :=
    fun l => ser_list _ l (fun _ => rfl)
  simp only [Json.serialisable]
  cases t with
  | v1 t =>
    cases h
    unfold TxV1.jsonFields
    apply sfilter
    simp [Json.serialisable.serialisableFields, Json.serialisable, ser_list, sci, sco, ssi, sso]
    exact sc _
  | v128 t =>
    cases h
    simp [TxV128.jsonFields, Json.serialisable.serialisableFields, Json.serialisable, ser_list, ser_ful, (ser_cond H _).1]
    exact sc _
  | v129 t =>
    cases h
    simp [TxV129.jsonFields, Json.serialisable.serialisableFields, Json.serialisable, ser_list, ser_ful, sco]
    exact sc _
  | v144 t =>
    simp only [Tx.jsonFields, TxV144.jsonFields] at h
    split at h
    · cases h
      simp [sapp, slf _ _ _ sn, slf _ _ _ sm, sref, Json.serialisable.serialisableFields, Json.serialisable, ser_list, sci]
    · cases h
  | v145 t =>
    cases h
    simp [TxV145.jsonFields, sapp, sar _ _ _ _ sn, sar _ _ _ _ sm, sref, Json.serialisable.serialisableFields, Json.serialisable, ser_list, sci]
  | v146 t =>
    simp only [Tx.jsonFields, TxV146.jsonFields] at h
    split at h
    · cases h
    · cases h
      simp [sapp, sref, Json.serialisable.serialisableFields, Json.serialisable, ser_list, sci, sm]
  | v208 t =>
    cases h
    simp [TxV208.jsonFields, sapp, sref, Json.serialisable.serialisableFields, Json.serialisable, ser_list, sci]
  | v209 t => cases h; rfl
  | v210 t =>
    simp only [Tx.jsonFields, TxV210.jsonFields, bind, Except.bind] at h
    split at h
    · cases h
    · split at h
      · cases h
      · split at h
        · cases h
        · cases h
          simp [Json.serialisable.serialisableFields, Json.serialisable, ser_list, sci, sref]

end TF.Props
