import Verif.Spec.Duration
import Verif.Lemmas.Text
import Verif.Lemmas.Currency
/-! # Reading durations -/
namespace TF
open Spec

theorem Digits_iff (s : Str) : Digits s ↔ s ≠ [] ∧ ∀ c ∈ s, isDig c = true := by
  have : ∀ c : Char, ('0' ≤ c ∧ c ≤ '9') ↔ isDig c = true := by
    intro c
    show (('0'.val ≤ c.val) ∧ (c.val ≤ '9'.val)) ↔ _
    rw [UInt32.le_iff_toNat_le, UInt32.le_iff_toNat_le]
    show (48 ≤ c.toNat ∧ c.toNat ≤ 57) ↔ _
    simp [isDig]
  simp only [Digits, this]

theorem digits_eq (s : Str) : digits s = digVal s := by
  unfold digits digVal Nat.ofDigitChars
  rfl

/-- The text of some units. -/
def textOf : List (Char × Nat × Option Str) → Str
  | [] => []
  | (u, _, o) :: ps => unitText u o ++ textOf ps

/-- The units that are mentioned. -/
def chosen : List (Char × Nat × Option Str) → List (Nat × Str)
  | [] => []
  | (_, n, some ds) :: ps => (n, ds) :: chosen ps
  | (_, _, none) :: ps => chosen ps

def GoodParts (ps : List (Char × Nat × Option Str)) : Prop :=
  ∀ p ∈ ps, isNumCh p.1 = false ∧ ∀ ds, p.2.2 = some ds → ds ≠ [] ∧ ∀ c ∈ ds, isNumCh c = true

theorem takeWhile_run {p : Char → Bool} {a : Str} (ha : ∀ c ∈ a, p c = true) {c : Char} (hc : p c = false) (r : Str) :
    (a ++ c :: r).takeWhile p = a ∧ (a ++ c :: r).dropWhile p = c :: r := by
  induction a with
  | nil => simp [hc]
  | cons x a ih =>
    have := ih (fun d hd => ha d (by simp [hd]))
    simp [ha x (by simp), this]

theorem durGroup_hit {u : Char} {ds : Str} (hn : ds ≠ []) (hd : ∀ c ∈ ds, isNumCh c = true) (hu : isNumCh u = false) (r : Str) :
    durGroup u (ds ++ u :: r) = (some ds, r) := by
  obtain ⟨h1, h2⟩ := takeWhile_run hd hu r
  unfold durGroup
  rw [h1, h2]
  cases ds with
  | nil => exact absurd rfl hn
  | cons x ds => simp

theorem durGroup_miss {u v : Char} (huv : v ≠ u) {ds : Str} (hn : ds ≠ []) (hd : ∀ c ∈ ds, isNumCh c = true) (hv : isNumCh v = false) (r : Str) :
    durGroup u (ds ++ v :: r) = (none, ds ++ v :: r) := by
  obtain ⟨h1, h2⟩ := takeWhile_run hd hv r
  unfold durGroup
  rw [h1, h2]
  cases ds with
  | nil => exact absurd rfl hn
  | cons x ds => simp [huv]

theorem durGroup_other (u : Char) : ∀ (ps : List (Char × Nat × Option Str)), GoodParts ps → (∀ p ∈ ps, p.1 ≠ u) →
    durGroup u (textOf ps) = (none, textOf ps)
  | [], _, _ => rfl
  | (v, n, none) :: ps, hg, hu => by
    show durGroup u ([] ++ textOf ps) = _
    exact durGroup_other u ps (fun p hp => hg p (by simp [hp])) (fun p hp => hu p (by simp [hp]))
  | (v, n, some ds) :: ps, hg, hu => by
    obtain ⟨h1, h2⟩ := hg (v, n, some ds) (by simp)
    obtain ⟨h3, h4⟩ := h2 ds rfl
    show durGroup u (ds ++ [v] ++ textOf ps) = (none, ds ++ [v] ++ textOf ps)
    rw [List.append_assoc]
    exact durGroup_miss (hu _ (by simp : (v, n, some ds) ∈ _)) h3 h4 h1 _

theorem durParse_text : ∀ (ps : List (Char × Nat × Option Str)), GoodParts ps → (ps.map (·.1)).Nodup →
    durParse (ps.map fun p => (p.1, p.2.1)) (textOf ps) = some (chosen ps)
  | [], _, _ => rfl
  | (u, n, some ds) :: ps, hg, hd => by
    obtain ⟨h1, h2⟩ := hg (u, n, some ds) (by simp)
    obtain ⟨h3, h4⟩ := h2 ds rfl
    have ih := durParse_text ps (fun p hp => hg p (by simp [hp])) (by simp only [List.map_cons, List.nodup_cons] at hd; exact hd.2)
    have e : textOf ((u, n, some ds) :: ps) = ds ++ u :: textOf ps := by show (ds ++ [u]) ++ textOf ps = _; simp
    rw [e]
    show durParse ((u, n) :: ps.map fun p => (p.1, p.2.1)) _ = _
    rw [durParse, durGroup_hit h3 h4 h1]
    simp only [ih]
    rfl
  | (u, n, none) :: ps, hg, hd => by
    simp only [List.map_cons, List.nodup_cons] at hd
    have hg' : GoodParts ps := fun p hp => hg p (by simp [hp])
    have ih := durParse_text ps hg' hd.2
    have hm := durGroup_other u ps hg' (fun p hp e => hd.1 (e ▸ List.mem_map_of_mem (f := (·.1)) hp))
    show durParse ((u, n) :: ps.map fun p => (p.1, p.2.1)) ([] ++ textOf ps) = chosen ps
    rw [List.nil_append, durParse, hm]
    exact ih

theorem takeWhile_mem {p : Char → Bool} {s : Str} {c : Char} (h : c ∈ s.takeWhile p) : p c = true := by
  induction s with
  | nil => simp at h
  | cons x s ih =>
    rw [List.takeWhile_cons] at h
    split at h
    · rcases List.mem_cons.1 h with rfl | h
      · assumption
      · exact ih h
    · simp at h

theorem durGroup_some {u : Char} {s ds r : Str} (h : durGroup u s = (some ds, r)) :
    s = ds ++ u :: r ∧ ds ≠ [] ∧ ∀ c ∈ ds, isNumCh c = true := by
  have hs := List.takeWhile_append_dropWhile (p := isNumCh) (l := s)
  have hm : ∀ c ∈ s.takeWhile isNumCh, isNumCh c = true := fun c => takeWhile_mem
  unfold durGroup at h
  split at h
  · simp at h
  · simp at h
  · rename_i c rest h2 hne
    split at h
    · rename_i hc
      obtain ⟨e1, rfl⟩ := Prod.mk.inj h
      have e1 := Option.some.inj e1
      rw [e1, h2, hc] at hs
      rw [e1] at hm hne
      exact ⟨hs.symm, fun e => hne e, hm⟩
    · simp at h

/-- What the expression matches. -/
theorem durParse_some : ∀ (us : List (Char × Nat)) (s : Str) (parts : List (Nat × Str)), (∀ u ∈ us, isNumCh u.1 = false) →
    durParse us s = some parts → ∃ ps : List (Char × Nat × Option Str), ps.map (fun p => (p.1, p.2.1)) = us ∧ GoodParts ps ∧ textOf ps = s ∧ chosen ps = parts
  | [], s, parts, _, h => by
    rw [durParse] at h
    split at h
    · rename_i hs
      cases h
      exact ⟨[], rfl, fun p hp => by simp at hp, hs.symm, rfl⟩
    · simp at h
  | (u, n) :: us, s, parts, hu, h => by
    rw [durParse] at h
    split at h
    · rename_i ds rest hgr
      obtain ⟨q, hq, rfl⟩ := Option.map_eq_some_iff.1 h
      obtain ⟨ps, h1, h2, h3, h4⟩ := durParse_some us rest q (fun v hv => hu v (by simp [hv])) hq
      obtain ⟨h5, h6, h7⟩ := durGroup_some hgr
      refine ⟨(u, n, some ds) :: ps, by simp [h1], ?_, ?_, by rw [chosen, h4]⟩
      · intro p hp
        rcases List.mem_cons.1 hp with rfl | hp
        · exact ⟨hu (u, n) (by simp), fun ds' e => by cases e; exact ⟨h6, h7⟩⟩
        · exact h2 p hp
      · show (ds ++ [u]) ++ textOf ps = s
        rw [h3, h5]; simp
    · rename_i x hgr
      obtain ⟨ps, h1, h2, h3, h4⟩ := durParse_some us s parts (fun v hv => hu v (by simp [hv])) h
      refine ⟨(u, n, none) :: ps, by simp [h1], ?_, by simpa [textOf, unitText] using h3, by rw [chosen, h4]⟩
      intro p hp
      rcases List.mem_cons.1 hp with rfl | hp
      · exact ⟨hu (u, n) (by simp), fun ds' e => by cases e⟩
      · exact h2 p hp

end TF
