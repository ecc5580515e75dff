import Verif.Lemmas.Rounding
/-! # C15 — arithmetic on amounts of any size: the nearest amount of 28 digits -/
namespace TF.Props
open TF Spec

theorem units_shift (neg : Bool) (q j : Nat) {e : Int} (he : -9 ≤ e) : units ⟨neg, q, e + (j : Int)⟩ = q * 10 ^ j * 10 ^ (e + 9).toNat := by
  unfold units
  simp only
  rw [Nat.mul_assoc, ← Nat.pow_add]
  congr 2
  omega

/-- **C15 (sums of any two amounts).** Adding two amounts never fails; the result is the sum rounded to 28 significant digits,
half to even — the sum itself when it is below 10^28 smallest units. -/
theorem C15_add_rounded (a b : Currency) (ha : GoodCurrency a) (hb : GoodCurrency b) :
    ∃ c, a.add (.cur b) = .ok c ∧ GoodCurrency c ∧ Nearest28 (amount a + amount b) (amount c) := by
  obtain ⟨c, e, h1, h2, h3⟩ := add_raw ha hb
  obtain ⟨q, j, h4, h5⟩ := decFix_nearest false c e
  have hgood : IsAmount ⟨false, q, e + (j : Int)⟩ := ⟨rfl, by show -9 ≤ e + (j : Int); omega⟩
  refine ⟨⟨some ⟨false, q, e + (j : Int)⟩⟩, ?_, hgood, ?_⟩
  · unfold Currency.add
    simp only [COperand.asCurrency, bind, Except.bind, Currency.set]
    rw [h1, h4]
    exact checkDec_ok hgood
  · have := nearest_scale (e + 9).toNat h5
    rw [h3, ← units_shift false q j h2] at this
    exact this

/-- **C15 (differences of any two amounts).** Taking away an amount that is not larger never fails and gives the difference
rounded to 28 digits; taking away a larger one is refused. -/
theorem C15_sub_rounded (a b : Currency) (ha : GoodCurrency a) (hb : GoodCurrency b) :
    (amount b ≤ amount a → ∃ c, a.sub (.cur b) = .ok c ∧ GoodCurrency c ∧ Nearest28 (amount a - amount b) (amount c)) ∧
    (amount a < amount b → a.sub (.cur b) = .error .nameError) := by
  obtain ⟨c, e, neg, h1, h2, h3, h3'⟩ := sub_raw ha hb
  obtain ⟨q, j, h4, h5⟩ := decFix_nearest neg c e
  have hsub : a.sub (.cur b) = Currency.checkDec (.fin ⟨neg, q, e + (j : Int)⟩) := by
    unfold Currency.sub
    simp only [COperand.asCurrency, bind, Except.bind, Currency.set]
    rw [h1, h4]
  refine ⟨fun hle => ?_, fun hlt => ?_⟩
  · have hneg : neg = false := by
      cases neg with
      | false => rfl
      | true => have := h3.1 rfl; unfold amount at hle; omega
    subst hneg
    have hgood : IsAmount ⟨false, q, e + (j : Int)⟩ := ⟨rfl, by show -9 ≤ e + (j : Int); omega⟩
    refine ⟨⟨some ⟨false, q, e + (j : Int)⟩⟩, by rw [hsub]; exact checkDec_ok hgood, hgood, ?_⟩
    have := nearest_scale (e + 9).toNat h5
    rw [h3' hle, ← units_shift false q j h2] at this
    exact this
  · have hneg : neg = true := h3.2 hlt
    rw [hsub, hneg]
    simp only [Currency.checkDec]
    rw [if_neg (by omega)]
    rfl

/-- **C15 (products of any two amounts).** A product is the exact product rounded to 28 digits, or it is refused because what is
left still has more than nine decimals. (Amounts count billionths of a token, so a product counts billionths of billionths.) -/
theorem C15_mul_rounded (a b : Currency) (ha : GoodCurrency a) (hb : GoodCurrency b) :
    (∃ c, a.mul (.cur b) = .ok c ∧ GoodCurrency c ∧ Nearest28 (amount a * amount b) (amount c * 10 ^ 9)) ∨
    a.mul (.cur b) = .error .nameError := by
  obtain ⟨ha1, ha2⟩ := ha
  obtain ⟨hb1, hb2⟩ := hb
  obtain ⟨q, j, h4, h5⟩ := decFix_nearest false (a.value.coef * b.value.coef) (a.value.exp + b.value.exp)
  have hmul : a.mul (.cur b) = Currency.checkDec (.fin ⟨false, q, a.value.exp + b.value.exp + (j : Int)⟩) := by
    unfold Currency.mul
    simp only [COperand.asCurrency, bind, Except.bind, Currency.set]
    unfold Dec.mul
    rw [ha1, hb1]
    show Currency.checkDec (.fin (decFix ⟨false, _, _⟩)) = _
    rw [h4]
  by_cases hx : a.value.exp + b.value.exp + (j : Int) < -9
  · right
    rw [hmul]
    simp only [Currency.checkDec]
    rw [if_pos hx]
  · left
    have hgood : IsAmount ⟨false, q, a.value.exp + b.value.exp + (j : Int)⟩ :=
      ⟨rfl, by show -9 ≤ a.value.exp + b.value.exp + (j : Int); omega⟩
    refine ⟨⟨some _⟩, by rw [hmul]; exact checkDec_ok hgood, hgood, ?_⟩
    have := nearest_scale (a.value.exp + b.value.exp + 18).toNat h5
    have e1 : a.value.coef * b.value.coef * 10 ^ (a.value.exp + b.value.exp + 18).toNat = amount a * amount b := by
      unfold amount units
      rw [Nat.mul_mul_mul_comm, ← Nat.pow_add]
      congr 2
      omega
    have e2 : q * 10 ^ j * 10 ^ (a.value.exp + b.value.exp + 18).toNat =
        amount ⟨some ⟨false, q, a.value.exp + b.value.exp + (j : Int)⟩⟩ * 10 ^ 9 := by
      show _ = q * 10 ^ (a.value.exp + b.value.exp + (j : Int) + 9).toNat * 10 ^ 9
      rw [Nat.mul_assoc, Nat.mul_assoc, ← Nat.pow_add, ← Nat.pow_add]
      congr 2
      omega
    rw [e1, e2] at this
    exact this

/- A sum that must be rounded up, one that is a tie and goes to the even digit, a product that is refused. -/
example : (⟨some ⟨false, 10 ^ 28, -9⟩⟩ : Currency).add (.cur ⟨some ⟨false, 7, -9⟩⟩) = .ok ⟨some ⟨false, 10 ^ 27 + 1, -8⟩⟩ := by decide +kernel
example : (⟨some ⟨false, 10 ^ 28, -9⟩⟩ : Currency).add (.cur ⟨some ⟨false, 5, -9⟩⟩) = .ok ⟨some ⟨false, 10 ^ 27, -8⟩⟩ := by decide +kernel
example : (⟨some ⟨false, 15, -5⟩⟩ : Currency).mul (.cur ⟨some ⟨false, 3, -5⟩⟩) = .error .nameError := by decide +kernel
example : (⟨some ⟨false, 15, -4⟩⟩ : Currency).mul (.cur ⟨some ⟨false, 3, -5⟩⟩) = .ok ⟨some ⟨false, 45, -9⟩⟩ := by decide +kernel
example : (⟨some ⟨false, 10 ^ 28, -9⟩⟩ : Currency).sub (.cur ⟨some ⟨false, 1, -9⟩⟩) = .ok ⟨some ⟨false, 10 ^ 28 - 1, -9⟩⟩ := by decide +kernel

/-- **C15** (finding). Whether a product is refused depends on how a factor was written: 0.00010 and 0.0001 are the same
amount, but only the second can be multiplied by 0.00001 (the exact product is one smallest unit). -/
theorem C15_mul_spelling_false :
    ¬ (∀ a a' b c : Currency, GoodCurrency a → GoodCurrency a' → GoodCurrency b → a.eqv a' = true → a.mul (.cur b) = .ok c →
      ∃ c', a'.mul (.cur b) = .ok c') := by
  intro h
  obtain ⟨c', hc⟩ := h ⟨some ⟨false, 1, -4⟩⟩ ⟨some ⟨false, 10, -5⟩⟩ ⟨some ⟨false, 1, -5⟩⟩ ⟨some ⟨false, 1, -9⟩⟩ ⟨rfl, by decide⟩ ⟨rfl, by decide⟩
    ⟨rfl, by decide⟩ (by decide) (by decide +kernel)
  have : (⟨some ⟨false, 10, -5⟩⟩ : Currency).mul (.cur ⟨some ⟨false, 1, -5⟩⟩) = .error .nameError := by decide +kernel
  rw [this] at hc
  cases hc

/-- **C17 (amounts of any size).** The JSON form of an amount is the exact number of smallest units, and reading it back never
fails: it gives that number rounded to 28 significant digits. -/
theorem C17_currency_json_rounded (c : Currency) (h : GoodCurrency c) :
    c.json = natStr (amount c) ∧
    ∃ c', Currency.fromJson c.json = .ok c' ∧ GoodCurrency c' ∧ Nearest28 (amount c) (amount c') := by
  have hj : c.json = natStr (amount c) := by unfold Currency.json; rw [toInt_eq h]
  obtain ⟨q, j, h4, h5⟩ := decFix_nearest false (amount c) (-9)
  have hgood : IsAmount ⟨false, q, -9 + (j : Int)⟩ := ⟨rfl, by show -9 ≤ -9 + (j : Int); omega⟩
  refine ⟨hj, ⟨some ⟨false, q, -9 + (j : Int)⟩⟩, ?_, hgood, ?_⟩
  · rw [hj]
    unfold Currency.fromJson
    rw [if_neg (natStr_ne_nil _), parseDec_natStr]
    have hm : (⟨false, amount c, 0⟩ : Dec).mul ⟨false, 1, -9⟩ = ⟨false, q, -9 + (j : Int)⟩ := by
      rw [← h4]
      unfold Dec.mul
      simp
    simp only [hm, Currency.set]
    exact checkDec_ok hgood
  · have e : amount ⟨some ⟨false, q, -9 + (j : Int)⟩⟩ = q * 10 ^ j * 10 ^ ((-9 : Int) + 9).toNat := units_shift false q j (by omega)
    rw [e]
    simpa using h5

example : Currency.fromJson (⟨some ⟨false, 10 ^ 28 + 7, -9⟩⟩ : Currency).json = .ok ⟨some ⟨false, 10 ^ 27 + 1, -8⟩⟩ := by decide +kernel

end TF.Props
