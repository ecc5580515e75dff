import Verif.Spec.Regex
/-! # The derivative matcher decides the language -/
namespace TF
open Spec

theorem nullable_iff (r : Re) : r.nullable = true ↔ Lang r [] := by
  induction r with
  | empty => simp [Re.nullable, Lang]
  | eps => simp [Re.nullable, Lang]
  | cls p => simp [Re.nullable, Lang]
  | seq a b iha ihb =>
    simp only [Re.nullable, Lang, Bool.and_eq_true, iha, ihb]
    constructor
    · rintro ⟨h1, h2⟩; exact ⟨[], [], rfl, h1, h2⟩
    · rintro ⟨u, v, h, h1, h2⟩
      have := List.append_eq_nil_iff.1 h.symm
      rw [this.1] at h1; rw [this.2] at h2; exact ⟨h1, h2⟩
  | alt a b iha ihb => simp [Re.nullable, Lang, iha, ihb]
  | star a => simp [Re.nullable, Lang, Star.nil]

theorem star_cons {L : Str → Prop} {c : Char} {s : Str} :
    Star L (c :: s) ↔ ∃ u v, s = u ++ v ∧ L (c :: u) ∧ Star L v := by
  constructor
  · intro h
    generalize hx : c :: s = x at h
    induction h with
    | nil => cases hx
    | @cons u v hu hv ih =>
      cases u with
      | nil => exact ih hx
      | cons d u =>
        simp only [List.cons_append, List.cons.injEq] at hx
        obtain ⟨rfl, rfl⟩ := hx
        exact ⟨u, v, rfl, hu, hv⟩
  · rintro ⟨u, v, rfl, hu, hv⟩
    exact Star.cons hu hv

theorem deriv_iff (r : Re) (c : Char) : ∀ s, Lang (r.deriv c) s ↔ Lang r (c :: s) := by
  induction r with
  | empty => intro s; simp [Re.deriv, Lang]
  | eps => intro s; simp [Re.deriv, Lang]
  | cls p =>
    intro s
    simp only [Re.deriv, Lang]
    split
    · rename_i h
      simp only [Lang]
      constructor
      · rintro rfl; exact ⟨c, rfl, h⟩
      · rintro ⟨d, hd, _⟩; cases hd; rfl
    · rename_i h
      simp only [Lang, false_iff]
      rintro ⟨d, hd, hp⟩; cases hd; exact h hp
  | seq a b iha ihb =>
    intro s
    have base : (∃ u v, s = u ++ v ∧ Lang (a.deriv c) u ∧ Lang b v) ↔ ∃ u v, s = u ++ v ∧ Lang a (c :: u) ∧ Lang b v := by
      simp only [iha]
    have whole : Lang (.seq a b) (c :: s) ↔ (∃ u v, s = u ++ v ∧ Lang a (c :: u) ∧ Lang b v) ∨ (Lang a [] ∧ Lang b (c :: s)) := by
      simp only [Lang]
      constructor
      · rintro ⟨u, v, h, hu, hv⟩
        cases u with
        | nil => right; simp only [List.nil_append] at h; subst h; exact ⟨hu, hv⟩
        | cons d u =>
          simp only [List.cons_append, List.cons.injEq] at h
          obtain ⟨rfl, rfl⟩ := h
          left; exact ⟨u, v, rfl, hu, hv⟩
      · rintro (⟨u, v, rfl, hu, hv⟩ | ⟨h1, h2⟩)
        · exact ⟨c :: u, v, rfl, hu, hv⟩
        · exact ⟨[], c :: s, rfl, h1, h2⟩
    rw [whole]
    simp only [Re.deriv]
    split
    · rename_i h
      have hn := (nullable_iff a).1 h
      simp only [Lang, base, ihb, hn, true_and]
    · rename_i h
      have hn : ¬ Lang a [] := fun h' => h ((nullable_iff a).2 h')
      simp only [Lang, base, hn, false_and, or_false]
  | alt a b iha ihb => intro s; simp [Re.deriv, Lang, iha, ihb]
  | star a iha =>
    intro s
    simp only [Re.deriv, Lang, star_cons, iha]

theorem test_iff (r : Re) (s : Str) : r.test s = true ↔ Lang r s := by
  induction s generalizing r with
  | nil => simp [Re.test, nullable_iff]
  | cons c s ih => simp [Re.test, ih, deriv_iff]

theorem lang_times (p : Char → Bool) (n : Nat) : ∀ s, Lang ((Re.cls p).times n) s ↔ s.length = n ∧ ∀ c ∈ s, p c = true := by
  induction n with
  | zero =>
    intro s; simp only [Re.times, Lang]
    constructor
    · rintro rfl; simp
    · rintro ⟨h, -⟩; exact List.length_eq_zero_iff.1 h
  | succ n ih =>
    intro s
    simp only [Re.times, Lang, ih]
    constructor
    · rintro ⟨u, v, rfl, ⟨c, rfl, hc⟩, hv, hp⟩
      refine ⟨by simp [hv], ?_⟩
      intro x hx
      simp only [List.cons_append, List.nil_append, List.mem_cons] at hx
      rcases hx with rfl | hx
      · exact hc
      · exact hp x hx
    · rintro ⟨h, hp⟩
      cases s with
      | nil => simp at h
      | cons c s =>
        exact ⟨[c], s, rfl, ⟨c, rfl, hp c (by simp)⟩, by simpa using h, fun x hx => hp x (by simp [hx])⟩

theorem lang_upTo (p : Char → Bool) (n : Nat) : ∀ s, Lang ((Re.cls p).upTo n) s ↔ s.length ≤ n ∧ ∀ c ∈ s, p c = true := by
  induction n with
  | zero =>
    intro s; simp only [Re.upTo, Lang]
    constructor
    · rintro rfl; simp
    · rintro ⟨h, -⟩; exact List.length_eq_zero_iff.1 (by omega)
  | succ n ih =>
    intro s
    simp only [Re.upTo, Lang, ih]
    constructor
    · rintro (rfl | ⟨u, v, rfl, ⟨c, rfl, hc⟩, hv, hp⟩)
      · simp
      · refine ⟨by simpa using hv, ?_⟩
        intro x hx
        simp only [List.cons_append, List.nil_append, List.mem_cons] at hx
        rcases hx with rfl | hx
        · exact hc
        · exact hp x hx
    · rintro ⟨h, hp⟩
      cases s with
      | nil => left; rfl
      | cons c s =>
        right
        exact ⟨[c], s, rfl, ⟨c, rfl, hp c (by simp)⟩, by simpa using h, fun x hx => hp x (by simp [hx])⟩

theorem lang_rep (p : Char → Bool) (lo hi : Nat) (h : lo ≤ hi) (s : Str) :
    Lang ((Re.cls p).rep lo hi) s ↔ lo ≤ s.length ∧ s.length ≤ hi ∧ ∀ c ∈ s, p c = true := by
  simp only [Re.rep, Lang, lang_times, lang_upTo]
  constructor
  · rintro ⟨u, v, rfl, ⟨hu, pu⟩, hv, pv⟩
    simp only [List.length_append]
    refine ⟨by omega, by omega, ?_⟩
    intro c hc
    rcases List.mem_append.1 hc with h | h
    · exact pu c h
    · exact pv c h
  · rintro ⟨h1, h2, hp⟩
    refine ⟨s.take lo, s.drop lo, (List.take_append_drop _ _).symm, ⟨by simp; omega, fun c hc => hp c (List.mem_of_mem_take hc)⟩,
      by simp; omega, fun c hc => hp c (List.mem_of_mem_drop hc)⟩

end TF
