import Verif.Props.Payment
/-!
# Property C87: amounts given by users
-/
namespace TF.Props
open TF Spec

theorem rstrip_append_spaces {s : Str} (n : Nat) (h : ∀ c, s.getLast? = some c → isPySpace c = false) : rstrip isPySpace (s ++ List.replicate n ' ') = s := by
  have h0 : rstrip isPySpace (s ++ List.replicate n ' ') = rstrip isPySpace s := by
    unfold rstrip
    rw [List.reverse_append, List.reverse_replicate]
    induction n with
    | zero => simp
    | succ n ih =>
      rw [List.replicate_succ, List.cons_append, List.dropWhile_cons_of_pos (by decide)]
      exact ih
  rw [h0]
  exact rstrip_eq_self h

theorem strip_spaces {s : Str} (a b : Nat) (hne : s ≠ []) (h1 : ∀ c, s.head? = some c → isPySpace c = false)
    (h2 : ∀ c, s.getLast? = some c → isPySpace c = false) : strip (List.replicate a ' ' ++ (s ++ List.replicate b ' ')) = s := by
  unfold strip lstrip
  have : ∀ (r : Str), (∀ c, r.head? = some c → isPySpace c = false) → (List.replicate a ' ' ++ r).dropWhile isPySpace = r := by
    intro r hr
    induction a with
    | zero => simp; exact dropWhile_eq_self hr
    | succ n ih => rw [List.replicate_succ, List.cons_append, List.dropWhile_cons_of_pos (by decide)]; exact ih
  rw [this _ (by
    intro c hc
    rw [List.head?_append, List.head?_eq_some_head hne, Option.some_or, ← List.head?_eq_some_head hne] at hc
    exact h1 c hc), rstrip_append_spaces b h2]

/-- What is left of an amount text once blanks and unit are removed. -/
theorem stripUnit_text {S u : Str} (a b c : Nat) (hne : S ≠ []) (hup : upper S = S) (h1 : ∀ c, S.head? = some c → isPySpace c = false)
    (h2 : ∀ c, S.getLast? = some c → isDig c = true) (hu : u = [] ∧ b = 0 ∨ upper u = "TFT".toList) :
    Currency.stripUnit (List.replicate a ' ' ++ (S ++ List.replicate b ' ' ++ u ++ List.replicate c ' ')) = S := by
  have usp : ∀ n, upper (List.replicate n ' ') = List.replicate n ' ' := by intro n; simp [upper]
  have uap : ∀ x y, upper (x ++ y) = upper x ++ upper y := by intro x y; simp [upper]
  have h2' : ∀ c, S.getLast? = some c → isPySpace c = false := fun c hc => (isDig_facts (h2 c hc)).1
  unfold Currency.stripUnit
  simp only [uap, usp, hup]
  rcases hu with ⟨rfl, rfl⟩ | hu
  · simp only [upper, List.map_nil, List.replicate_zero, List.append_nil]
    rw [strip_spaces a c hne h1 h2']
    rw [if_neg]
    rintro ⟨h4, hT⟩
    have : S.getLast? = some 'T' := by
      have h3 : (S.drop (S.length - 3)).getLast? = some 'T' := by rw [hT]; rfl
      rw [List.getLast?_drop, if_neg (by omega)] at h3
      exact h3
    exact absurd (h2 'T' this) (by decide)
  · rw [hu]
    have hx : S ++ List.replicate b ' ' ++ "TFT".toList ≠ [] := by simp
    rw [strip_spaces a c hx ?_ ?_]
    · have hl : (S ++ List.replicate b ' ' ++ "TFT".toList).length - 3 = (S ++ List.replicate b ' ').length := by simp; omega
      rw [if_pos, hl, List.take_left, rstrip_append_spaces b h2']
      refine ⟨?_, by rw [hl, List.drop_left]; rfl⟩
      have := List.length_pos_iff.2 hne
      simp; omega
    · intro x hx
      rw [List.append_assoc, List.head?_append, List.head?_eq_some_head hne, Option.some_or, ← List.head?_eq_some_head hne] at hx
      exact h1 x hx
    · intro x hx
      simp at hx
      subst hx; decide

/-- **C87** (what holds: decimal amounts). A text of digits with a decimal point and at most nine decimals, or followed by the unit `TFT` in
any case, with blanks around, is accepted and means that many TFT. -/
theorem C87_decimal_text_partial (A F u : Str) (a b c : Nat) (hA : A ≠ []) (hF : F.length ≤ 9) (hd : ∀ x ∈ A ++ F, isDig x = true)
    (hu : u = [] ∧ b = 0 ∨ upper u = "TFT".toList) :
    ∃ cur, Currency.set (.str (List.replicate a ' ' ++ ((if F = [] then A else A ++ '.' :: F) ++ List.replicate b ' ' ++ u ++ List.replicate c ' '))) = .ok cur ∧
      amount cur * 10 ^ F.length = digVal (A ++ F) * 10 ^ 9 := by
  generalize hS : (if F = [] then A else A ++ '.' :: F) = S
  have hSne : S ≠ [] := by rw [← hS]; split <;> simp [hA]
  have hhead : ∀ x, S.head? = some x → isDig x = true := by
    intro x hx
    rw [← hS] at hx
    apply hd
    split at hx
    · exact List.mem_append_left _ (List.mem_of_head? hx)
    · rw [List.head?_append, List.head?_eq_some_head hA] at hx
      simp at hx; subst hx
      exact List.mem_append_left _ (List.head_mem hA)
  have hlast : ∀ x, S.getLast? = some x → isDig x = true := by
    intro x hx
    rw [← hS] at hx
    apply hd
    split at hx
    · exact List.mem_append_left _ (List.mem_of_getLast? hx)
    · rename_i hFne
      rw [List.getLast?_append, List.getLast?_cons] at hx
      have := List.getLast?_eq_some_getLast hFne
      rw [this] at hx
      simp at hx
      subst hx
      exact List.mem_append_right _ (List.getLast_mem hFne)
  have hall : ∀ x ∈ S, isDig x = true ∨ x = '.' := by
    intro x hx
    rw [← hS] at hx
    split at hx
    · exact .inl (hd x (by simp [hx]))
    · simp only [List.mem_append, List.mem_cons] at hx
      rcases hx with hx | rfl | hx
      · exact .inl (hd x (by simp [hx]))
      · exact .inr rfl
      · exact .inl (hd x (by simp [hx]))
  have hup : upper S = S := by
    unfold upper
    conv => rhs; rw [← List.map_id S]
    apply List.map_congr_left
    intro x hx
    rcases hall x hx with h | rfl
    · exact (isDig_facts h).2.2.2.2.2.2.2.1
    · rfl
  have hp : parseDec S = some (.fin ⟨false, digVal (A ++ F), -(F.length : Int)⟩) := by
    rw [parseDec_plain S hSne hhead hall, ← hS, parseUnsigned_amount A F hA hd]; rfl
  have hg : IsAmount ⟨false, digVal (A ++ F), -(F.length : Int)⟩ := ⟨rfl, by simp only; omega⟩
  refine ⟨⟨some ⟨false, digVal (A ++ F), -(F.length : Int)⟩⟩, ?_, ?_⟩
  · simp only [Currency.set, stripUnit_text a b c hSne hup (fun x hx => (isDig_facts (hhead x hx)).1) hlast hu, hp]; exact checkDec_ok hg
  · have h9 : (-(F.length : Int) + 9).toNat = 9 - F.length := by omega
    simp only [amount, Currency.value, Option.getD_some, units, h9]
    rw [Nat.mul_assoc, ← Nat.pow_add]
    congr 2
    omega

example : Currency.set (.str "  123.456 tft ".toList) = .ok ⟨some ⟨false, 123456, -3⟩⟩ ∧ amount ⟨some ⟨false, 123456, -3⟩⟩ = 123456000000 := by decide

/-- **C87** (finding). `coins_send`, `coins_new` and `output_add` document that an amount given as int, or as text of digits only, is in the
smallest unit (`1 == 0.000000001 TFT`). Every positive such amount is instead taken as whole TFT, that is 10^9 times as much. -/
theorem C87_smallest_unit_false (n : Nat) (hn : 0 < n) :
    (∃ c, Currency.set (.int n) = .ok c ∧ amount c = n * 10 ^ 9 ∧ amount c ≠ n) ∧
    ∃ c, Currency.set (.str (natStr n)) = .ok c ∧ amount c = n * 10 ^ 9 ∧ amount c ≠ n := by
  constructor
  · refine ⟨⟨some ⟨false, n, 0⟩⟩, ?_, ?_, ?_⟩
    · simp only [Currency.set]
      have : Dec.ofInt (n : Int) = ⟨false, n, 0⟩ := by
        unfold Dec.ofInt
        simp
      rw [this]
      exact checkDec_ok ⟨rfl, by show (-9 : Int) ≤ 0; omega⟩
    · simp [amount, Currency.value, units]
    · simp [amount, Currency.value, units]; omega
  · obtain ⟨c, h1, h2⟩ := C87_decimal_text_partial (natStr n) [] [] 0 0 0 (natStr_ne_nil n) (by simp) (by simpa using natStr_digits n) (.inl ⟨rfl, rfl⟩)
    simp only [List.replicate_zero, List.append_nil, List.nil_append, if_true, List.length_nil, Nat.pow_zero, Nat.mul_one] at h1 h2
    have hv : digVal (natStr n) = n := by
      have h3 := parseUnsigned_amount (natStr n) [] (natStr_ne_nil n) (by simpa using natStr_digits n) false
      have h4 := parseDec_natStr n
      rw [parseDec_plain _ (natStr_ne_nil n) (fun c hc => natStr_digits n c (List.mem_of_head? hc)) (fun c hc => .inl (natStr_digits n c hc))] at h4
      simp only [if_true, List.append_nil] at h3
      rw [h3] at h4
      simpa using h4
    rw [hv] at h2
    exact ⟨c, h1, h2, by omega⟩

example : shown (demoWorld.coinsSend (.uh (addrOf key2)) (.int 1) .none .none .none .none) =
    ([[(1000000000, .unlockHash (addrOf key2)), (3900000000, .unlockHash (addrOf key1))]],
      some ([(1000000000, .unlockHash (addrOf key2)), (3900000000, .unlockHash (addrOf key1))], true)) := by decide +kernel

/-! ## C56: ERC20 recipients -/

/-- **C56** (an ERC20 recipient takes neither lock nor data). `coins_send` to an ERC20 address with a lock or with data raises `ValueError` and
neither posts nor returns anything. -/
theorem C56_erc20_plain (W : World) (r : Recipient) (addr : BVal) (amt : CVal) (src : Source) (refund : Recipient) (lock : LockVal) (data : DataArg)
    (hr : r.erc20? = some addr) (h : lock ≠ .none ∨ data ≠ .none) : W.coinsSend r amt src refund lock data = ⟨[], .error .valueError⟩ := by
  unfold World.coinsSend
  rw [hr]
  simp only
  split
  · simp at h
  · rfl

example : (Recipient.str ("0x" ++ "00112233445566778899aabbccddeeff00112233").toList).erc20? ≠ none := by decide +kernel

end TF.Props
