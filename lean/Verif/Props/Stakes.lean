import Verif.Model.Stakes
import Verif.Spec.Stakes
import Verif.Props.Numeral
import Verif.Props.Primitive
import Verif.Props.Conditions
/-! # C20: block stakes set from texts and from currency amounts -/
namespace TF.Props
open TF Spec

theorem decDigit_iff (c : Char) : DecDigit c ↔ isDig c = true := by
  have e : ∀ a b : Char, a ≤ b ↔ a.toNat ≤ b.toNat := fun a b => Iff.rfl
  unfold DecDigit isDig
  simp only [e, decide_eq_true_eq]
  exact Iff.rfl

/-- Decimal digits in groups. -/
def DecGroups (gs : List Str) : Prop := ∀ g ∈ gs, g ≠ [] ∧ ∀ c ∈ g, DecDigit c

theorem dec_grouped_head {gs : List Str} (hne : gs ≠ []) (hg : DecGroups gs) : ∃ c r, grouped gs = c :: r ∧ DecDigit c := by
  cases gs with
  | nil => exact absurd rfl hne
  | cons g l =>
    obtain ⟨h1, h2⟩ := hg g (by simp)
    cases g with
    | nil => exact absurd rfl h1
    | cons c g =>
      refine ⟨c, (grouped ((c :: g) :: l)).tail, ?_, h2 c (by simp)⟩
      cases l <;> simp [grouped]

theorem dec_grouped_last {gs : List Str} (hne : gs ≠ []) (hg : DecGroups gs) : ∀ c, (grouped gs).getLast? = some c → DecDigit c := by
  induction gs with
  | nil => exact absurd rfl hne
  | cons g l ih =>
    obtain ⟨h1, h2⟩ := hg g (by simp)
    cases l with
    | nil => intro c hc; exact h2 c (List.mem_of_getLast? hc)
    | cons g' l =>
      intro c hc
      rw [grouped, List.getLast?_append, List.getLast?_cons] at hc
      · cases hh : (grouped (g' :: l)).getLast? with
        | none =>
          obtain ⟨d, r, he, -⟩ := dec_grouped_head (gs := g' :: l) (by simp) (fun x hx => hg x (List.mem_cons_of_mem _ hx))
          rw [he] at hh; simp at hh
        | some d =>
          rw [hh] at hc
          simp only [Option.getD_some, Option.some_or, Option.some.injEq] at hc
          subst hc
          exact ih (by simp) (fun x hx => hg x (List.mem_cons_of_mem _ hx)) d hh
      · simp

theorem usDigits_iff (s : Str) : ∀ d : Str,
    (usDigits false s = some d ↔ ∃ gs, gs ≠ [] ∧ DecGroups gs ∧ s = grouped gs ∧ d = gs.flatten) ∧
    (usDigits true s = some d ↔ (s = [] ∧ d = []) ∨ (∃ gs, gs ≠ [] ∧ DecGroups gs ∧ s = grouped gs ∧ d = gs.flatten) ∨
      ∃ gs, gs ≠ [] ∧ DecGroups gs ∧ s = '_' :: grouped gs ∧ d = gs.flatten) := by
  induction s with
  | nil =>
    intro d
    have hn : ¬ ∃ gs, gs ≠ [] ∧ DecGroups gs ∧ ([] : Str) = grouped gs ∧ d = gs.flatten := by
      rintro ⟨gs, hne, hg, he, -⟩
      obtain ⟨c, r, h, -⟩ := dec_grouped_head hne hg
      rw [h] at he; cases he
    constructor
    · constructor
      · intro h; simp [usDigits] at h
      · intro h; exact absurd h hn
    · constructor
      · intro h; simp [usDigits] at h; exact .inl ⟨rfl, h⟩
      · rintro (⟨-, rfl⟩ | h | ⟨gs, -, -, h, -⟩)
        · rfl
        · exact absurd h hn
        · cases h
  | cons c s ih =>
    intro d
    have first : ∀ gs, gs ≠ [] → DecGroups gs → c :: s = grouped gs → DecDigit c := by
      intro gs hne hg he
      obtain ⟨x, r, h, hx⟩ := dec_grouped_head hne hg
      rw [h] at he
      rw [(List.cons.inj he).1]; exact hx
    by_cases hc : isDig c = true
    · have hd := (decDigit_iff c).2 hc
      have hu : c ≠ '_' := (isDig_facts hc).2.1
      have key : (∃ d', usDigits true s = some d' ∧ c :: d' = d) ↔ ∃ gs, gs ≠ [] ∧ DecGroups gs ∧ c :: s = grouped gs ∧ d = gs.flatten := by
        constructor
        · rintro ⟨d', h, rfl⟩
          rcases (ih d').2.1 h with ⟨rfl, rfl⟩ | ⟨gs, hne, hg, rfl, rfl⟩ | ⟨gs, hne, hg, rfl, rfl⟩
          · exact ⟨[[c]], by simp, by intro g h; simp at h; subst h; exact ⟨by simp, by simpa using hd⟩, rfl, rfl⟩
          · cases gs with
            | nil => exact absurd rfl hne
            | cons g l =>
              refine ⟨(c :: g) :: l, by simp, ?_, ?_, by simp⟩
              · intro g' h
                rcases List.mem_cons.1 h with rfl | h
                · refine ⟨by simp, fun x hx => ?_⟩
                  rcases List.mem_cons.1 hx with rfl | hx
                  · exact hd
                  · exact (hg g (by simp)).2 x hx
                · exact hg g' (by simp [h])
              · cases l <;> simp [grouped]
          · refine ⟨[c] :: gs, by simp, ?_, ?_, by simp⟩
            · intro g' h
              rcases List.mem_cons.1 h with rfl | h
              · exact ⟨by simp, by simpa using hd⟩
              · exact hg g' h
            · cases gs with
              | nil => exact absurd rfl hne
              | cons g l => simp [grouped]
        · rintro ⟨gs, hne, hg, he, rfl⟩
          cases gs with
          | nil => exact absurd rfl hne
          | cons g l =>
            obtain ⟨hg1, hg2⟩ := hg g (by simp)
            cases g with
            | nil => exact absurd rfl hg1
            | cons x g =>
              have hx : c = x := by
                cases l with
                | nil => simp only [grouped, List.cons.injEq] at he; exact he.1
                | cons g' l => simp only [grouped, List.cons_append, List.cons.injEq] at he; exact he.1
              subst hx
              refine ⟨((c :: g) :: l).flatten.tail, ?_, by simp⟩
              apply (ih _).2.2
              cases l with
              | nil =>
                simp only [grouped, List.cons.injEq, true_and] at he
                cases g with
                | nil => exact .inl ⟨he, rfl⟩
                | cons d' g =>
                  exact .inr (.inl ⟨[d' :: g], by simp, by
                    intro x hx; simp at hx; subst hx; exact ⟨by simp, fun y hy => hg2 y (List.mem_cons_of_mem _ hy)⟩, he, by simp⟩)
              | cons g' l =>
                simp only [grouped, List.cons_append, List.cons.injEq, true_and] at he
                cases g with
                | nil =>
                  exact .inr (.inr ⟨g' :: l, by simp, fun x hx => hg x (List.mem_cons_of_mem _ hx), by simpa using he, by simp⟩)
                | cons d' g =>
                  refine .inr (.inl ⟨(d' :: g) :: g' :: l, by simp, ?_, by simpa [grouped] using he, by simp⟩)
                  intro x hx
                  rcases List.mem_cons.1 hx with rfl | hx
                  · exact ⟨by simp, fun y hy => hg2 y (List.mem_cons_of_mem _ hy)⟩
                  · exact hg x (List.mem_cons_of_mem _ hx)
      have e : ∀ p, usDigits p (c :: s) = some d ↔ ∃ d', usDigits true s = some d' ∧ c :: d' = d := by
        intro p; rw [usDigits, if_pos hc]; exact Option.map_eq_some_iff
      refine ⟨by rw [e]; exact key, ?_⟩
      rw [e, key]
      constructor
      · exact fun h => .inr (.inl h)
      · rintro (⟨h, -⟩ | h | ⟨gs, -, -, h, -⟩)
        · cases h
        · exact h
        · exact absurd (List.cons.inj h).1 hu
    · have hn : ¬ ∃ gs, gs ≠ [] ∧ DecGroups gs ∧ c :: s = grouped gs ∧ d = gs.flatten := by
        rintro ⟨gs, hne, hg, he, -⟩
        exact hc ((decDigit_iff c).1 (first gs hne hg he))
      refine ⟨⟨fun h => ?_, fun h => absurd h hn⟩, ?_⟩
      · rw [usDigits, if_neg hc] at h
        simp at h
      · rw [usDigits, if_neg hc]
        by_cases hu : c = '_'
        · subst hu
          rw [if_pos ⟨rfl, rfl⟩, (ih d).1]
          constructor
          · rintro ⟨gs, h1, h2, rfl, rfl⟩; exact .inr (.inr ⟨gs, h1, h2, rfl, rfl⟩)
          · rintro (⟨h, -⟩ | h | ⟨gs, h1, h2, h, h3⟩)
            · cases h
            · exact absurd h hn
            · exact ⟨gs, h1, h2, (List.cons.inj h).2, h3⟩
        · rw [if_neg (by simp [hu])]
          constructor
          · intro h; cases h
          · rintro (⟨h, -⟩ | h | ⟨gs, -, -, h, -⟩)
            · cases h
            · exact absurd h hn
            · exact absurd (List.cons.inj h).1 hu

theorem writtenBy_digVal (s : Str) : writtenBy s = digVal s := by
  unfold writtenBy digVal Nat.ofDigitChars
  rfl

theorem splitSign_cases (t : Str) : ∃ sign, t = sign ++ (splitSign t).2 ∧
    ((sign = [] ∨ sign = ['+']) ∧ (splitSign t).1 = false ∨ sign = ['-'] ∧ (splitSign t).1 = true) := by
  unfold splitSign
  split
  · exact ⟨['-'], rfl, .inr ⟨rfl, rfl⟩⟩
  · exact ⟨['+'], rfl, .inl ⟨.inr rfl, rfl⟩⟩
  · exact ⟨[], rfl, .inl ⟨.inl rfl, rfl⟩⟩

/-- `int(text)` follows Python's grammar. -/
theorem pyInt_iff (s : Str) (i : Int) : pyInt s = some i ↔ IntNumeral s i := by
  unfold pyInt
  constructor
  · intro h
    obtain ⟨before, after, hs, hb, ha⟩ := ends_split isIntSpace (s.map asciiDigit)
    have h : (usDigits false (splitSign (intText s)).2).map (fun d => if (splitSign (intText s)).1 = true then - (digVal d : Int) else (digVal d : Int)) =
        some i := h
    obtain ⟨d, hd, hi⟩ := Option.map_eq_some_iff.1 h
    obtain ⟨gs, hne, hg, hds, rfl⟩ := (usDigits_iff _ d).1.1 hd
    refine (?_ : IntNumeral s i)
    obtain ⟨sign, hsg, ht⟩ := splitSign_cases (intText s)
    refine ⟨before, sign, gs, after, (hs.trans (by rw [← hds, ← hsg]; rfl)), hb, ha, hne, hg, ?_⟩
    rw [writtenBy_digVal, ← hi]
    rcases ht with ⟨h1, h2⟩ | ⟨h1, h2⟩
    · exact .inl ⟨h1, by simp [h2]⟩
    · exact .inr ⟨h1, by simp [h2]⟩
  · rintro ⟨before, sign, gs, after, hs, hb, ha, hne, hg, hi⟩
    obtain ⟨c, r, hc, hd⟩ := dec_grouped_head hne hg
    have hf := isDig_facts ((decDigit_iff c).1 hd)
    have hst : intText s = sign ++ grouped gs := by
      unfold intText
      rw [hs]
      refine ends_around isIntSpace hb ha (by rw [hc]; simp) ?_ ?_
      · intro x hx
        rcases hi with ⟨rfl | rfl, -⟩ | ⟨rfl, -⟩
        · rw [hc] at hx; simp at hx; subst hx; exact intSpace_of hf.1
        · simp at hx; subst hx; decide
        · simp at hx; subst hx; decide
      · intro x hx
        rw [List.getLast?_append] at hx
        cases hl : (grouped gs).getLast? with
        | none => rw [hc] at hl; simp at hl
        | some y =>
          rw [hl, Option.some_or] at hx
          cases hx
          exact intSpace_of (isDig_facts ((decDigit_iff _).1 (dec_grouped_last hne hg _ hl))).1
    rw [hst]
    have hu : usDigits false (grouped gs) = some gs.flatten := (usDigits_iff _ _).1.2 ⟨gs, hne, hg, rfl, rfl⟩
    rcases hi with ⟨rfl | rfl, rfl⟩ | ⟨rfl, rfl⟩
    · have : splitSign ([] ++ grouped gs) = (false, grouped gs) := by
        rw [List.nil_append, hc]
        unfold splitSign
        split
        · rename_i h; exact absurd (List.cons.inj h).1 hf.2.2.2.1
        · rename_i h; exact absurd (List.cons.inj h).1 hf.2.2.1
        · rfl
      rw [this]
      simp [hu, writtenBy_digVal]
    · simp [splitSign, hu, writtenBy_digVal]
    · simp [splitSign, hu, writtenBy_digVal]

/-- **C20** (texts). A block stake given as a text is the whole number the text stands for to Python; a negative number raises `TypeError`,
and a text that is no whole number raises `ValueError`. -/
theorem C20_text (s : Str) :
    (∀ n : Nat, Blockstake.set (.str s) = .ok ⟨n⟩ ↔ IntNumeral s n) ∧
    (Blockstake.set (.str s) = .error .typeError ↔ ∃ i < 0, IntNumeral s i) ∧
    (Blockstake.set (.str s) = .error .valueError ↔ ¬ ∃ i, IntNumeral s i) := by
  simp only [← pyInt_iff]
  cases h : pyInt s with
  | none => simp [Blockstake.set, h]
  | some i =>
    by_cases hi : i < 0
    · simp only [Blockstake.set, h, if_pos hi]
      refine ⟨?_, ?_, ?_⟩
      · intro n; constructor
        · intro h; cases h
        · intro h; cases h; omega
      · simp [hi]
      · simp
    · simp only [Blockstake.set, h, if_neg hi]
      refine ⟨?_, ?_, ?_⟩
      · intro n; constructor
        · intro h; cases h; rw [Int.toNat_of_nonneg (by omega)]
        · intro h; cases h; rfl
      · constructor
        · intro h; cases h
        · rintro ⟨j, hj, h⟩; cases h; exact absurd hj hi
      · simp

example : IntNumeral " +1_0\n".toList 10 ∧ Blockstake.set (.str " +1_0\n".toList) = .ok ⟨10⟩ ∧
    Blockstake.set (.str "-1".toList) = .error .typeError ∧ Blockstake.set (.str "1__0".toList) = .error .valueError := by
  refine ⟨(pyInt_iff _ _).1 (by decide), by decide, by decide, by decide⟩

/-- **C20** (everything else). Set from nothing, a number, a text or another object, a block stake holds a whole number, the one described
above, and is encoded as such. -/
theorem C20_held :
    StakeHeld.set .none = .ok (.whole 0) ∧ StakeHeld.set .other = .error .typeError ∧
    (∀ i, StakeHeld.set (.int i) = (Blockstake.set (.int i)).map fun b => .whole b.value) ∧
    (∀ s, StakeHeld.set (.str s) = (Blockstake.set (.str s)).map fun b => .whole b.value) ∧
    (∀ b : Blockstake, (StakeHeld.whole b.value).sia = b.sia ∧ (StakeHeld.whole b.value).riv = b.riv ∧
      (StakeHeld.whole b.value).asInt = .ok b.value) := by
  refine ⟨rfl, rfl, fun i => ?_, fun s => ?_, fun b => ⟨rfl, rfl, rfl⟩⟩
  · simp only [StakeHeld.set, Blockstake.set]
    split <;> rfl
  · simp only [StakeHeld.set, Blockstake.set]
    cases pyInt s with
    | none => rfl
    | some i => simp only []; split <;> rfl

/-- **C20** (false of the code) for currency amounts: every `Currency` is accepted as a block stake, and none of the stakes so made can be
encoded or taken as a number. -/
theorem C20_currency_false (c : Currency) :
    ∃ h, StakeHeld.set (.currency c) = .ok h ∧ h.sia = ⟨[], some .attributeError⟩ ∧ h.riv = ⟨[], some .attributeError⟩ ∧
      h.asInt = .error .typeError := ⟨_, rfl, rfl, rfl, rfl⟩

/-- **C23** (the first two characters). They are a whole number as Python reads it, the type of the address. -/
theorem C23_prefix (H : Bytes → Bytes) (s : Str) (u : UnlockHash) (h : UnlockHash.fromStr H s = .ok u) :
    IntNumeral (s.take 2) (u.type.toNat : Int) := (pyInt_iff _ _).1 (C23_accepted_address_partial H s u h).2.1

end TF.Props
