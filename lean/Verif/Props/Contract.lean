import Verif.Spec.Contract
import Verif.Props.Duration
import Verif.Props.Redeem
import Verif.Props.Report
/-! # C117: comparing and describing atomic swap contracts -/
namespace TF.Props
open TF TF.Spec

/-! ## Comparing -/

/-- The comparison of the conditions is that of their JSON. -/
theorem C117_json (H : Bytes → Bytes) (a b : Contract) :
    a.sameCondition H b = true ↔ a.output.condition.json H = b.output.condition.json H := by
  unfold Contract.sameCondition Contract.output Condition.json Condition.jsonData condJson
  simp [Condition.type, and_assoc]

/-- What comes of a comparison: it never raises, and says "equal" for the same identifier, state, amount, and JSON of the condition. -/
theorem eqv_spec (H : Bytes → Bytes) (a b : Contract) : ∃ r, a.eqv H b = .ok r ∧
    (r = true ↔ a.unspent = b.unspent ∧ a.id = b.id ∧ a.amount.eqv b.amount = true ∧ a.sameCondition H b = true) := by
  unfold Contract.eqv
  by_cases h1 : a.unspent = b.unspent
  · simp only [h1, ne_eq, not_true_eq_false, if_false, BinData.eq, bind, Except.bind, pure, Except.pure, true_and]
    by_cases h2 : a.id = b.id
    · simp only [h2, decide_true, Bool.not_true, Bool.false_eq_true, if_false, true_and]
      cases h3 : a.amount.eqv b.amount
      · exact ⟨false, by simp, by simp⟩
      · exact ⟨_, rfl, by simp⟩
    · have : ¬ a.id.value = b.id.value := fun e => h2 (by cases h : a.id; cases h' : b.id; rw [h, h'] at e; simpa using e)
      exact ⟨false, by simp [this], by simp [h2]⟩
  · exact ⟨false, by simp [h1]; rfl, by simp [h1]⟩

/-- C117: two contracts are equal exactly when they are the same contract, for the same amount and in the same state; they can always be
compared. (`!=` is the negation: types/AtomicSwap.py:51-52.) -/
theorem C117_equal (H : Bytes → Bytes) (hH : Digest32 H) (a b : Contract) (ha : FullContract a) (hb : FullContract b) :
    ∃ r, a.eqv H b = .ok r ∧ (r = true ↔ SameContract a b) := by
  obtain ⟨r, h1, h2⟩ := eqv_spec H a b
  refine ⟨r, h1, h2.trans ?_⟩
  rw [eqv_amount ha.amount hb.amount, C117_json]
  constructor
  · rintro ⟨h3, h4, h5, h6⟩
    have ea := C28_condition_json_partial H hH _ ha.condition
    have eb := C28_condition_json_partial H hH _ hb.condition
    have : Condition.atomicSwap a.sender a.receiver a.secretHash a.lockTime = .atomicSwap b.sender b.receiver b.secretHash b.lockTime := by
      have h7 : Condition.fromJson H (a.output.condition.json H) = Condition.fromJson H (b.output.condition.json H) := by rw [h6]
      exact Except.ok.inj (ea.symm.trans (h7.trans eb))
    obtain ⟨e1, e2, e3, e4⟩ := Condition.atomicSwap.inj this
    exact ⟨h4, h5, h3, e1, e2, e3, e4⟩
  · rintro ⟨h4, h5, h3, e1, e2, e3, e4⟩
    refine ⟨h3, h4, h5, ?_⟩
    simp only [Contract.output, e1, e2, e3, e4]

/-! ## Describing -/

theorem status_tells (clock : Int → Str) (F : FloatSeconds) (c : Contract) (now : Int) (h : c.lockTime - now < 86400 * 10 ^ 9) :
    ∃ s, c.status clock F now = .ok s ∧ Tells clock F c now s := by
  unfold Contract.status Tells
  cases c.unspent
  · exact ⟨_, rfl, rfl⟩
  · simp only [if_true, Bool.true_eq_false, if_false]
    by_cases h1 : c.lockTime ≤ now
    · simp only [ge_iff_le, h1, if_true]
      exact ⟨_, rfl, rfl⟩
    · obtain ⟨d, h2, h3⟩ := C69_roundtrip_partial F (.int (c.lockTime - now)) (c.lockTime - now) rfl (by omega) h
      simp only [ge_iff_le, h1, if_false, h2]
      exact ⟨_, rfl, d, rfl, h3⟩

theorem dropWhile_append_all {p : Char → Bool} {a b : Str} (h : ∀ c ∈ a, p c = true) : (a ++ b).dropWhile p = b.dropWhile p := by
  induction a with
  | nil => rfl
  | cons x a ih =>
    simp only [List.cons_append, List.dropWhile_cons, h x (List.mem_cons_self ..), if_true]
    exact ih fun c hc => h c (List.mem_cons_of_mem _ hc)

theorem strip_around {a s b : Str} (ha : ∀ c ∈ a, isPySpace c = true) (hb : ∀ c ∈ b, isPySpace c = true) (hne : s ≠ [])
    (h1 : ∀ c, s.head? = some c → isPySpace c = false) (h2 : ∀ c, s.getLast? = some c → isPySpace c = false) : strip (a ++ s ++ b) = s := by
  unfold strip lstrip rstrip
  rw [List.append_assoc, dropWhile_append_all ha]
  have e1 : (s ++ b).dropWhile isPySpace = s ++ b := by
    cases s with
    | nil => exact absurd rfl hne
    | cons x s => simp [h1 x rfl]
  rw [e1, List.reverse_append, dropWhile_append_all (fun c hc => hb c (List.mem_reverse.1 hc))]
  have : s.reverse.dropWhile isPySpace = s.reverse := by
    cases h : s.reverse with
    | nil => rfl
    | cons x r =>
      have : s.getLast? = some x := by rw [← List.head?_reverse, h]; rfl
      simp [h2 x this]
  rw [this, List.reverse_reverse]

theorem text_form (n A id col st V v S s R r X x : Str) (hn : ∀ c ∈ n, isPySpace c = true) (a : Char) (ha : A.head? = some a) (ha' : isPySpace a = false)
    (hx : x ≠ []) (hx' : ∀ c ∈ x, isPySpace c = false) :
    strip (n ++ A ++ id ++ col ++ n ++ st ++ n ++ V ++ v ++ n ++ S ++ s ++ n ++ R ++ r ++ n ++ X ++ x ++ n) =
      List.intercalate n [A ++ id ++ col, st, V ++ v, S ++ s, R ++ r, X ++ x] := by
  have e : List.intercalate n [A ++ id ++ col, st, V ++ v, S ++ s, R ++ r, X ++ x] =
      A ++ (id ++ col ++ n ++ st ++ n ++ V ++ v ++ n ++ S ++ s ++ n ++ R ++ r ++ n ++ X) ++ x := by simp [List.intercalate]
  rw [e]
  obtain ⟨m, hm⟩ : ∃ m, m = id ++ col ++ n ++ st ++ n ++ V ++ v ++ n ++ S ++ s ++ n ++ R ++ r ++ n ++ X := ⟨_, rfl⟩
  have e2 : n ++ A ++ id ++ col ++ n ++ st ++ n ++ V ++ v ++ n ++ S ++ s ++ n ++ R ++ r ++ n ++ X ++ x ++ n = n ++ (A ++ m ++ x) ++ n := by
    rw [hm]; simp only [List.append_assoc]
  rw [e2, ← hm]
  cases A with
  | nil => cases ha
  | cons a' A =>
    cases ha
    refine strip_around hn hn (by simp) ?_ ?_
    · intro c hc
      simp at hc; subst hc; exact ha'
    · intro c hc
      rw [List.getLast?_append_of_ne_nil _ hx] at hc
      exact hx' c (List.mem_of_getLast? hc)

theorem toHex_nospace (b : Bytes) : ∀ c ∈ toHex b, isPySpace c = false := by
  intro c hc
  simp only [toHex, List.mem_flatMap] at hc
  obtain ⟨x, -, hx⟩ := hc
  simp only [List.mem_cons, List.not_mem_nil, or_false] at hx
  have key : ∀ n : Fin 16, isPySpace (Nat.digitChar n.val) = false := by decide
  rcases hx with rfl | rfl
  · exact key ⟨x.toNat / 16, by have := x.toNat_lt; omega⟩
  · exact key ⟨x.toNat % 16, by omega⟩

/-- C117: the description of a contract names it, its state, its amount, the two parties and the secret hash. -/
theorem C117_text (H : Bytes → Bytes) (clock : Int → Str) (F : FloatSeconds) (c : Contract) (hc : FullContract c) (now : Int)
    (h : c.lockTime - now < 86400 * 10 ^ 9) : ∃ s, c.text H clock F now = .ok s ∧ DescriptionOf H clock F c now s := by
  obtain ⟨status, h1, h2⟩ := status_tells clock F c now h
  obtain ⟨-, -, ⟨b, hs, hb⟩, -⟩ := hc.condition
  have hne : toHex b ≠ [] := by
    intro e; have := congrArg List.length e; rw [toHex_length, hb] at this; simp at this
  unfold Contract.text
  rw [h1]
  refine ⟨_, rfl, status, c.amount.str true, h2, inTft hc.amount, ?_⟩
  have hid := hash_str_full hc.id
  have hsec : (hashedSecretData c.secretHash).str = toHex (c.secretHash.getD []) := by rw [hs]; rfl
  rw [hid, hsec]
  exact text_form newLine _ _ _ _ _ _ _ _ _ _ _ _ (by decide) 'A' rfl (by decide) (by rw [hs]; exact hne) (toHex_nospace _)

/-! ## What is said agrees with what is possible -/

/-- C117: a contract that is not spent is described as refundable exactly when its time does not stand in the way of a refund by a wallet that knows
the chain to be at that time: the owner of the sender's address is then allowed to, and before that nobody is. -/
theorem C117_refund (W : SwapWorld) (hread : Readable W.toWorld) (c : Contract) (hu : c.unspent = true) (clock : Int → Str) (F : FloatSeconds) (now : Int)
    (ht : W.chainTime = .ok now) (h : c.lockTime - now < 86400 * 10 ^ 9) :
    ∃ s, c.status clock F now = .ok s ∧
      (s = "Refund is available since ".toList ++ clock c.lockTime ++ ".".toList → Holds W.toWorld c.sender → W.mayRefund c = .ok ()) ∧
      (∀ dur, s = "Refund available at ".toList ++ clock c.lockTime ++ " (in: ".toList ++ dur ++ ").".toList →
        W.mayRefund c = .error .atomicSwapForbidden ∧ ∃ wait, 0 < wait ∧
          ∀ W' : SwapWorld, W'.chainTime = .ok (now + wait) → Readable W'.toWorld → Holds W'.toWorld c.sender → W'.mayRefund c = .ok ()) := by
  have may : ∀ (W : SwapWorld) (now : Int), W.chainTime = .ok now → c.lockTime ≤ now → Readable W.toWorld → Holds W.toWorld c.sender → W.mayRefund c = .ok () := by
    intro W now ht hle hr hh
    obtain ⟨addrs, ha1, ha2⟩ := addressIn_holds hr hh
    have hnot : ¬ now < c.lockTime := by omega
    simp only [SwapWorld.mayRefund, ht, if_neg hnot, ha1, ha2, bind, Except.bind, pure, Except.pure, Bool.not_true, Bool.false_eq_true, if_false]
  obtain ⟨s, h1, h2⟩ := status_tells clock F c now h
  refine ⟨s, h1, ?_, ?_⟩
  · intro e hh
    unfold Tells at h2
    rw [hu] at h2
    simp only [Bool.true_eq_false, if_false] at h2
    split at h2
    · rename_i hle; exact may W now ht hle hread hh
    · obtain ⟨dur, h3, -⟩ := h2
      rw [e] at h3
      exact absurd (congrArg (fun l : Str => l.take 8) h3) (by simp)
  · intro dur e
    unfold Tells at h2
    rw [hu] at h2
    simp only [Bool.true_eq_false, if_false] at h2
    split at h2
    · rw [e] at h2
      exact absurd (congrArg (fun l : Str => l.take 8) h2) (by simp)
    · rename_i hle
      refine ⟨?_, c.lockTime - now, by omega, fun W' ht' hr hh => may W' _ ht' (by omega) hr hh⟩
      simp only [SwapWorld.mayRefund, ht, bind, Except.bind]
      rw [if_pos (by omega)]; rfl

/-- C117: no time, or one that is not positive, is the time of the computer. -/
theorem C117_now (host : Int) (t : Option Int) : contractNow host t = (match t with
    | some t => if 0 < t then t else host
    | none => host) := by
  cases t with
  | none => rfl
  | some t =>
    simp only [contractNow]
    by_cases h : 0 < t
    · rw [if_neg (by omega), if_pos h]
    · rw [if_pos (by omega), if_neg h]

/-! ## Examples -/

theorem held_full : FullContract heldContract where
  id := rfl
  amount := ⟨rfl, by decide⟩
  condition := ⟨⟨.inl ⟨by decide, by decide⟩, by decide⟩, ⟨.inl ⟨by decide, by decide⟩, by decide⟩, ⟨_, rfl, by decide +kernel⟩, by decide⟩
example : heldContract.eqv toyHash { heldContract with amount := ⟨some ⟨false, 100, -1⟩⟩ } = .ok true := by decide +kernel
example : heldContract.eqv toyHash { heldContract with lockTime := 1500000001 } = .ok false := by decide +kernel
example : heldContract.eqv toyHash { heldContract with unspent := false } = .ok false := by decide +kernel
example : heldContract.status (fun _ => "2017/07/14 02:40:00".toList) (fun _ => .error .valueError) 1499900000 =
    .ok "Refund available at 2017/07/14 02:40:00 (in: 1d3h46m40s).".toList := by decide +kernel
example : heldContract.status (fun _ => "2017/07/14 02:40:00".toList) (fun _ => .error .valueError) 1500000000 =
    .ok "Refund is available since 2017/07/14 02:40:00.".toList := by decide +kernel
example : (1500000000 : Int) - 1499900000 < 86400 * 10 ^ 9 := by decide

end TF.Props
