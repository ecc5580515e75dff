import Verif.Spec.IpText
import Verif.Model.Ip
import Verif.Props.Reading
import Verif.Props.Words
/-! # C129: IP addresses are read and written as they are published -/
namespace TF.Props
open TF TF.Spec

/-! ## Numbers -/

theorem ofDigits_ge (s : Str) (n : Nat) : n * 10 ^ s.length ≤ Nat.ofDigitChars 10 s n := by
  induction s generalizing n with
  | nil => simp [Nat.ofDigitChars]
  | cons c s ih =>
    have := ih (10 * n + (c.toNat - '0'.toNat))
    rw [Nat.ofDigitChars_cons]
    refine Nat.le_trans ?_ this
    rw [List.length_cons, Nat.pow_succ, Nat.add_mul]
    have : n * (10 ^ s.length * 10) = 10 * n * 10 ^ s.length := by rw [Nat.mul_comm (10 ^ _), ← Nat.mul_assoc, Nat.mul_comm n]
    omega

theorem digVal_head {c : Char} {s : Str} (hc : isDig c = true) (h : c ≠ '0') : 10 ^ s.length ≤ digVal (c :: s) := by
  unfold digVal
  rw [Nat.ofDigitChars_cons]
  refine Nat.le_trans ?_ (ofDigits_ge s _)
  have : 48 < c.toNat := by
    simp only [isDig, decide_eq_true_eq] at hc
    rcases Nat.lt_or_eq_of_le hc.1 with h' | h'
    · exact h'
    · exact absurd (Char.toNat_inj.1 (h'.symm : c.toNat = '0'.toNat)) h
  have e : '0'.toNat = 48 := rfl
  rw [e]
  exact Nat.le_mul_of_pos_left _ (by omega)

theorem octet_iff (s : Str) (n : Nat) : parseOctet s = some n ↔ OctetText s n := by
  unfold parseOctet OctetText
  rw [writtenBy_digVal]
  by_cases h1 : s = []
  · simp [h1]
  by_cases h2 : s.all isDig = true
  · have h2' : ∀ c ∈ s, isDig c = true := by simpa using h2
    rw [if_neg h1, if_neg (by simpa using h2)]
    by_cases h4 : s ≠ ['0'] ∧ s.head? = some '0'
    · constructor
      · split
        · simp
        · simp
      · rintro ⟨-, -, h, -⟩; exact absurd (h h4.2) h4.1
    · by_cases h3 : s.length > 3
      · rw [if_pos h3]
        constructor
        · simp
        · rintro ⟨-, -, -, e, hn⟩
          obtain ⟨c, t, rfl⟩ := List.exists_cons_of_ne_nil h1
          have hc0 : c ≠ '0' := by
            rintro rfl
            refine h4 ⟨?_, rfl⟩
            intro e; rw [e] at h3; simp at h3
          have := digVal_head (s := t) (h2' c (by simp)) hc0
          have h10 : 10 ^ 3 ≤ 10 ^ t.length := Nat.pow_le_pow_right (by omega) (by simp at h3; omega)
          omega
      · rw [if_neg h3, if_neg h4]
        constructor
        · split
          · simp
          · rintro h
            have := Option.some.inj h
            exact ⟨h1, fun c hc => (decDigit_iff c).2 (h2' c hc), fun h => by_contra fun h' => h4 ⟨h', h⟩, this.symm, by omega⟩
        · rintro ⟨-, -, -, e, hn⟩
          rw [if_neg (by omega), e]
  · rw [if_neg h1, if_pos (by simpa using h2)]
    constructor
    · simp
    · rintro ⟨-, h, -⟩
      exact absurd (by simpa using fun c hc => (decDigit_iff c).1 (h c hc)) h2

theorem octet_chars {s : Str} {n : Nat} (h : OctetText s n) : '.' ∉ s ∧ '/' ∉ s ∧ ':' ∉ s ∧ '%' ∉ s ∧ ∀ c ∈ s, ¬ IsLetter c := by
  obtain ⟨-, h, -⟩ := h
  have key : ∀ d : Char, ¬ DecDigit d → d ∉ s := fun d hd hm => hd (h d hm)
  refine ⟨key _ (by unfold DecDigit; decide), key _ (by unfold DecDigit; decide), key _ (by unfold DecDigit; decide), key _ (by unfold DecDigit; decide), fun c hc hl => ?_⟩
  have := (decDigit_iff c).1 (h c hc)
  simp only [isDig, decide_eq_true_eq] at this
  simp only [IsLetter, char_le] at hl
  have e1 : 'a'.toNat = 97 := rfl
  have e2 : 'A'.toNat = 65 := rfl
  omega

/-! ## Splitting and joining -/

theorem split_joinC {d : Char} {ws : List Str} (hne : ws ≠ []) (h : ∀ w ∈ ws, d ∉ w) : splitAll d (List.intercalate [d] ws) = ws := by
  induction ws with
  | nil => exact absurd rfl hne
  | cons w ws ih =>
    cases ws with
    | nil => simpa using splitAll_no (h w (by simp))
    | cons w' ws =>
      have e : List.intercalate [d] (w :: w' :: ws) = w ++ d :: List.intercalate [d] (w' :: ws) := by
        simp [List.intercalate]
      rw [e, splitAll_app (h w (by simp)), ih (by simp) (fun x hx => h x (List.mem_cons_of_mem _ hx))]

theorem join_splitC (d : Char) : ∀ s : Str, List.intercalate [d] (splitAll d s) = s ∧ splitAll d s ≠ []
  | [] => by simp [splitAll, List.intercalate]
  | x :: s => by
    obtain ⟨h1, h2⟩ := join_splitC d s
    rw [splitAll]
    by_cases e : x = d
    · rw [if_pos e]
      refine ⟨?_, by simp⟩
      cases hs : splitAll d s with
      | nil => exact absurd hs h2
      | cons p ps =>
        rw [hs] at h1
        rw [e, ← h1]
        simp [List.intercalate]
    · rw [if_neg e]
      cases hs : splitAll d s with
      | nil => exact absurd hs h2
      | cons p ps =>
        refine ⟨?_, by simp⟩
        rw [hs] at h1
        simp only
        rw [← h1]
        cases ps <;> simp [List.intercalate]

theorem v4_iff (s : Str) (b : Bytes) : parseV4 s = some b ↔ V4Text s b := by
  unfold parseV4
  constructor
  · intro h
    split at h
    · simp at h
    split at h
    · simp at h
    rename_i hsl hlen
    have hj := (join_splitC '.' s).1
    match hsp : splitAll '.' s, hlen with
    | [x, y, z, w], _ =>
      rw [hsp] at h hj
      simp only [Option.map_eq_some_iff, mapM_some_iff] at h
      obtain ⟨ns, hn, rfl⟩ := h
      match ns, hn with
      | [p, q, r, t], hn =>
        simp only [List.map_cons, List.map_nil, List.cons.injEq, and_true] at hn
        obtain ⟨h1, h2, h3, h4⟩ := hn
        have o1 := (octet_iff _ _).1 h1.symm
        have o2 := (octet_iff _ _).1 h2.symm
        have o3 := (octet_iff _ _).1 h3.symm
        have o4 := (octet_iff _ _).1 h4.symm
        have e : ∀ {x : Str} {n : Nat}, OctetText x n → OctetText x (UInt8.ofNat n).toNat := by
          intro x n h
          rw [UInt8.toNat_ofNat', Nat.mod_eq_of_lt (by have := h.2.2.2.2; omega)]
          exact h
        refine ⟨x, y, z, w, _, _, _, _, ?_, rfl, e o1, e o2, e o3, e o4⟩
        rw [← hj]; simp [List.intercalate]
      | [], hn => simp at hn
      | [_], hn => simp at hn
      | [_, _], hn => simp at hn
      | [_, _, _], hn => simp at hn
      | _ :: _ :: _ :: _ :: _ :: _, hn => simp at hn
    | [], h => exact absurd (by simp) h
    | [_], h => exact absurd (by simp) h
    | [_, _], h => exact absurd (by simp) h
    | [_, _, _], h => exact absurd (by simp) h
    | _ :: _ :: _ :: _ :: _ :: _, h => exact absurd (by simp) h
  · rintro ⟨x, y, z, w, p, q, r, t, rfl, rfl, o1, o2, o3, o4⟩
    rw [if_neg (by
      simp only [List.contains_eq_mem, List.mem_append, List.mem_cons]
      have := (octet_chars o1).2.1; have := (octet_chars o2).2.1; have := (octet_chars o3).2.1; have := (octet_chars o4).2.1
      simp_all)]
    rw [splitAll_app (octet_chars o1).1, splitAll_app (octet_chars o2).1, splitAll_app (octet_chars o3).1, splitAll_no (octet_chars o4).1]
    rw [if_neg (by simp)]
    rw [Option.map_eq_some_iff]
    refine ⟨[p.toNat, q.toNat, r.toNat, t.toNat], ?_, by simp⟩
    rw [mapM_some_iff]
    simp [(octet_iff _ _).2 o1, (octet_iff _ _).2 o2, (octet_iff _ _).2 o3, (octet_iff _ _).2 o4]

/-! ## Groups -/

theorem hexNat_forall {s : Str} {ds : List Nat} (h : List.Forall₂ HexValue s ds) (a : Nat) :
    s.foldl (fun n c => 16 * n + (hexVal c).getD 0) a = ds.foldl (fun n d => 16 * n + d) a := by
  induction h generalizing a with
  | nil => rfl
  | cons h _ ih => rw [List.foldl_cons, List.foldl_cons, (hexVal_iff _ _).2 h]; exact ih _

theorem hextet_iff (s : Str) (n : Nat) : parseHextet s = some n ↔ GroupText s n := by
  unfold parseHextet GroupText
  by_cases h1 : s.all (fun c => (hexVal c).isSome) = true
  · rw [if_neg (fun h => h h1)]
    have : ∃ ds : List Nat, List.Forall₂ HexValue s ds := by
      have h1 : ∀ c ∈ s, (hexVal c).isSome = true := by simpa using h1
      clear * - h1
      induction s with
      | nil => exact ⟨[], .nil⟩
      | cons c s ih =>
        obtain ⟨ds, h⟩ := ih fun x hx => h1 x (List.mem_cons_of_mem _ hx)
        obtain ⟨d, hd⟩ := Option.isSome_iff_exists.1 (h1 c (by simp))
        exact ⟨d :: ds, .cons ((hexVal_iff _ _).1 hd) h⟩
    obtain ⟨ds, hds⟩ := this
    by_cases h2 : s.length > 4
    · rw [if_pos h2]; constructor
      · simp
      · rintro ⟨-, h, -⟩; omega
    rw [if_neg h2]
    by_cases h3 : s = []
    · rw [if_pos h3]; simp [h3]
    rw [if_neg h3]
    have : 1 ≤ s.length := List.length_pos_iff.2 h3
    constructor
    · intro h; exact ⟨this, by omega, ds, hds, by rw [← Option.some.inj h, hexNat, hexNat_forall hds]⟩
    · rintro ⟨-, -, es, hes, rfl⟩
      rw [hexNat, hexNat_forall hes]
  · rw [if_pos (by simpa using h1)]
    constructor
    · simp
    · rintro ⟨-, -, ds, h, -⟩
      refine absurd ?_ h1
      clear * - h
      induction h with
      | nil => rfl
      | cons h _ ih => simpa [(hexVal_iff _ _).2 h] using ih

theorem forall_mapM {α β : Type} {f : α → Option β} {P : α → β → Prop} (h : ∀ a b, f a = some b ↔ P a b) (l : List α) (r : List β) :
    l.mapM f = some r ↔ List.Forall₂ P l r := by
  rw [mapM_some_iff]
  induction l generalizing r with
  | nil => cases r <;> simp
  | cons a l ih =>
    cases r with
    | nil => simp
    | cons b r => rw [List.map_cons, List.map_cons, List.cons.injEq, ih, List.forall₂_cons, ← h, eq_comm]

theorem hexValue_chars {c : Char} {n : Nat} (h : HexValue c n) : c ≠ '.' ∧ c ≠ '/' ∧ c ≠ ':' ∧ c ≠ '%' ∧ n < 16 := by
  have := (hexVal_iff _ _).2 h
  have key : ∀ d : Char, hexVal d = none → c ≠ d := by rintro d hd rfl; rw [hd] at this; simp at this
  refine ⟨key _ (by decide), key _ (by decide), key _ (by decide), key _ (by decide), ?_⟩
  unfold hexVal at this
  simp only at this
  split at this
  · have := Option.some.inj this; omega
  split at this
  · have := Option.some.inj this; omega
  split at this
  · have := Option.some.inj this; omega
  · simp at this

theorem forall_mem {α β : Type} {P : α → β → Prop} {Q : α → Prop} (h : ∀ a b, P a b → Q a) {l : List α} {r : List β} (hf : List.Forall₂ P l r) : ∀ a ∈ l, Q a := by
  induction hf with
  | nil => simp
  | cons hp _ ih => intro a ha; rcases List.mem_cons.1 ha with rfl | ha; exacts [h _ _ hp, ih a ha]

theorem group_chars {s : Str} {n : Nat} (h : GroupText s n) : s ≠ [] ∧ '.' ∉ s ∧ '/' ∉ s ∧ ':' ∉ s ∧ '%' ∉ s ∧ n < 65536 := by
  obtain ⟨h1, h4, ds, hds, rfl⟩ := h
  have hc := forall_mem (Q := fun c => c ≠ '.' ∧ c ≠ '/' ∧ c ≠ ':' ∧ c ≠ '%') (fun a b h => ⟨(hexValue_chars h).1, (hexValue_chars h).2.1, (hexValue_chars h).2.2.1, (hexValue_chars h).2.2.2.1⟩) hds
  refine ⟨by rintro rfl; simp at h1, fun h => (hc _ h).1 rfl, fun h => (hc _ h).2.1 rfl, fun h => (hc _ h).2.2.1 rfl, fun h => (hc _ h).2.2.2 rfl, ?_⟩
  have hd : ∀ d ∈ ds, d < 16 := forall_mem (P := fun d c => HexValue c d) (Q := fun d => d < 16) (fun a b h => (hexValue_chars h).2.2.2.2) hds.flip
  have hl := hds.length_eq
  clear * - hd hl h4
  match ds with
  | [] => simp
  | [a] => have := hd a (by simp); simp; omega
  | [a, b] => have := hd a (by simp); have := hd b (by simp); simp; omega
  | [a, b, c] => have := hd a (by simp); have := hd b (by simp); have := hd c (by simp); simp; omega
  | [a, b, c, d] => have := hd a (by simp); have := hd b (by simp); have := hd c (by simp); have := hd d (by simp); simp; omega
  | _ :: _ :: _ :: _ :: _ :: _ => simp at hl; omega


theorem toDigits_hex (n : Nat) : ∃ ds : List Nat, List.Forall₂ HexValue (Nat.toDigits 16 n) ds ∧ n = ds.foldl (fun n d => 16 * n + d) 0 := by
  have hd : ∀ d, d < 16 → HexValue (Nat.digitChar d) d := by
    have : ∀ k : Fin 16, hexVal (Nat.digitChar k.val) = some k.val := by decide
    intro d hd
    exact (hexVal_iff _ _).1 (this ⟨d, hd⟩)
  induction n using Nat.strongRecOn with
  | _ n ih =>
    rw [Nat.toDigits_eq_if (by decide)]
    split
    · rename_i h
      exact ⟨[n], .cons (hd n h) .nil, by simp⟩
    · obtain ⟨ds, h1, h2⟩ := ih (n / 16) (by omega)
      refine ⟨ds ++ [n % 16], List.rel_append h1 (.cons (hd _ (by omega)) .nil), ?_⟩
      rw [List.foldl_append, ← h2]
      simp; omega

theorem toDigits_length (k n : Nat) (h : n < 16 ^ (k + 1)) : (Nat.toDigits 16 n).length ≤ k + 1 := by
  induction k generalizing n with
  | zero => rw [Nat.toDigits_eq_if (by decide), if_pos (by simpa using h)]; simp
  | succ k ih =>
    rw [Nat.toDigits_eq_if (by decide)]
    split
    · simp
    · have := ih (n / 16) (by rw [Nat.pow_succ] at h; omega)
      simp; omega

theorem toDigits_head (n : Nat) (h : (Nat.toDigits 16 n).head? = some '0') : n = 0 := by
  have hd : ∀ d, d < 16 → Nat.digitChar d = '0' → d = 0 := by
    have : ∀ k : Fin 16, Nat.digitChar k.val = '0' → k.val = 0 := by decide
    intro d hd
    exact this ⟨d, hd⟩
  induction n using Nat.strongRecOn with
  | _ n ih =>
    rw [Nat.toDigits_eq_if (by decide)] at h
    split at h
    · rename_i hn
      exact hd n hn (by simpa using h)
    · have hne : Nat.toDigits 16 (n / 16) ≠ [] := Nat.toDigits_ne_nil
      rw [List.head?_append_of_ne_nil _ hne] at h
      have := ih (n / 16) (by omega) h
      omega

theorem toDigits_lower (n : Nat) : ∀ c ∈ Nat.toDigits 16 n, ¬ ('A' ≤ c ∧ c ≤ 'F') := by
  have hd : ∀ d, d < 16 → ¬ ('A' ≤ Nat.digitChar d ∧ Nat.digitChar d ≤ 'F') := by
    have : ∀ k : Fin 16, ¬ ('A' ≤ Nat.digitChar k.val ∧ Nat.digitChar k.val ≤ 'F') := by decide
    intro d hd
    exact this ⟨d, hd⟩
  induction n using Nat.strongRecOn with
  | _ n ih =>
    rw [Nat.toDigits_eq_if (by decide)]
    split
    · rename_i h
      intro c hc; simp at hc; subst hc; exact hd n h
    · intro c hc
      rcases List.mem_append.1 hc with hc | hc
      · exact ih (n / 16) (by omega) c hc
      · simp at hc; subst hc; exact hd _ (by omega)

theorem hexStr_canon {n : Nat} (h : n < 65536) : CanonGroup (hexStr n) n := by
  obtain ⟨ds, h1, h2⟩ := toDigits_hex n
  refine ⟨⟨List.length_pos_iff.2 Nat.toDigits_ne_nil, toDigits_length 3 n h, ds, h1, h2⟩, ?_, toDigits_lower n⟩
  intro h
  rw [toDigits_head n h]; rfl

/-! ## Parts -/

/-- What a text is split into before or after a double colon. -/
def orEmpty (ps : List Str) : List Str := if ps = [] then [[]] else ps

theorem groupsFalse_iff (s : Str) (ns : List Nat) : GroupsText false s ns ↔ ns ≠ [] ∧ List.Forall₂ GroupText (splitAll ':' s) ns := by
  constructor
  · intro h
    induction h with
    | one s n h => exact ⟨by simp, by rw [splitAll_no (group_chars h).2.2.2.1]; exact .cons h .nil⟩
    | more s n t ns h _ ih => exact ⟨by simp, by rw [splitAll_app (group_chars h).2.2.2.1]; exact .cons h ih.2⟩
    | dotted => simp_all
  · rintro ⟨-, h⟩
    obtain ⟨hj, hne⟩ := join_splitC ':' s
    rw [← hj]
    clear hj
    generalize splitAll ':' s = ps at h hne
    clear s
    induction h with
    | nil => exact absurd rfl hne
    | @cons p n ps ns hp hr ih =>
      cases hr with
      | nil => simpa using GroupsText.one _ _ hp
      | cons h1 h2 =>
        have e : ∀ (a b : Str) (r : List Str), List.intercalate [':'] (a :: b :: r) = a ++ ':' :: List.intercalate [':'] (b :: r) := by
          intro a b r; simp [List.intercalate]
        rw [e]
        exact .more _ _ _ _ hp (ih (by simp))

theorem expand_app (A : List Str) {P : List Str} (h : P ≠ []) : expandV4 (A ++ P) = (expandV4 P).map (A ++ ·) := by
  unfold expandV4
  rw [List.getLast?_append_of_ne_nil _ h]
  obtain ⟨l, hl⟩ : ∃ l, P.getLast? = some l := by
    cases hp : P.getLast? with
    | none => exact absurd (List.getLast?_eq_none_iff.1 hp) h
    | some l => exact ⟨l, rfl⟩
  rw [hl]
  simp only
  split
  · split
    · simp [List.dropLast_append_of_ne_nil h]
    · rfl
  · rfl

theorem groupsTrue_iff (s : Str) (ns : List Nat) : GroupsText true s ns ↔ ∃ ps, expandV4 (splitAll ':' s) = some ps ∧ List.Forall₂ GroupText ps ns := by
  have hx : ∀ p : Str, '.' ∉ p → expandV4 [p] = some [p] := by
    intro p hp; simp [expandV4, hp]
  have hbyte : ∀ a b : UInt8, a.toNat * 256 + b.toNat < 65536 := fun a b => by have := a.toNat_lt; have := b.toNat_lt; omega
  constructor
  · intro h
    induction h with
    | one s n h => exact ⟨[s], by rw [splitAll_no (group_chars h).2.2.2.1, hx _ (group_chars h).2.1], .cons h .nil⟩
    | more s n t ns h _ ih =>
      obtain ⟨ps, h1, h2⟩ := ih
      refine ⟨s :: ps, ?_, .cons h h2⟩
      rw [splitAll_app (group_chars h).2.2.2.1]
      have := expand_app [s] (join_splitC ':' t).2
      rw [List.singleton_append] at this
      rw [this, h1]; rfl
    | dotted s p q r t _ h =>
      refine ⟨[hexStr (p.toNat * 256 + q.toNat), hexStr (r.toNat * 256 + t.toNat)], ?_, .cons (hexStr_canon (hbyte _ _)).1 (.cons (hexStr_canon (hbyte _ _)).1 .nil)⟩
      have h' := (v4_iff _ _).2 h
      obtain ⟨a, b, c, d, _, _, _, _, rfl, -, o1, o2, o3, o4⟩ := h
      rw [splitAll_no (by
        simp only [List.mem_append, List.mem_cons]
        have := (octet_chars o1).2.2.1; have := (octet_chars o2).2.2.1; have := (octet_chars o3).2.2.1; have := (octet_chars o4).2.2.1
        simp_all)]
      simp only [expandV4, List.getLast?_singleton, h']
      rw [if_pos (by simp)]
      rfl
  · rintro ⟨ps, h1, h2⟩
    obtain ⟨hj, hne⟩ := join_splitC ':' s
    rw [← hj]
    clear hj
    generalize splitAll ':' s = qs at h1 hne
    clear s
    induction qs generalizing ps ns with
    | nil => exact absurd rfl hne
    | cons q qs ih =>
      cases qs with
      | nil =>
        have ej : List.intercalate [':'] [q] = q := by simp
        rw [ej]
        unfold expandV4 at h1
        simp only [List.getLast?_singleton] at h1
        split at h1
        · split at h1
          · rename_i a b c d hv
            have hv := (v4_iff _ _).1 hv
            have := Option.some.inj h1
            simp only [List.dropLast_singleton, List.nil_append] at this
            subst this
            cases h2 with
            | cons g1 h2 => cases h2 with
              | cons g2 h2 =>
                cases h2
                have u : ∀ {n m : Nat}, n < 65536 → GroupText (hexStr n) m → m = n := by
                  intro n m hn hg
                  have h1 := (hextet_iff _ _).2 hg
                  rw [(hextet_iff _ _).2 (hexStr_canon hn).1] at h1
                  exact (Option.some.inj h1).symm
                rw [u (hbyte _ _) g1, u (hbyte _ _) g2]
                exact .dotted _ _ _ _ _ rfl hv
          · simp at h1
        · have := Option.some.inj h1; subst this
          cases h2 with
          | cons g h2 => cases h2; exact .one _ _ g
      | cons q' qs =>
        have e := expand_app [q] (P := q' :: qs) (by simp)
        rw [List.singleton_append] at e
        rw [e, Option.map_eq_some_iff] at h1
        obtain ⟨ps', hp, rfl⟩ := h1
        cases h2 with
        | cons g h2 =>
          have ej : List.intercalate [':'] (q :: q' :: qs) = q ++ ':' :: List.intercalate [':'] (q' :: qs) := by simp [List.intercalate]
          rw [ej]
          exact .more _ _ _ _ g (ih _ _ h2 hp (by simp))


theorem orEmpty_length (A : List Str) : (orEmpty A).length = if A = [] then 1 else A.length := by
  unfold orEmpty; split <;> rfl

theorem orEmpty_ne (A : List Str) : orEmpty A ≠ [] := by
  unfold orEmpty; split <;> simp_all

theorem groups_ne {A : List Str} {hi : List Nat} (h : List.Forall₂ GroupText A hi) : [] ∉ A :=
  fun hm => (forall_mem (Q := fun s => s ≠ []) (fun _ _ h => (group_chars h).1) h) [] hm rfl

theorem groupsOf_short {A B : List Str} {hi lo : List Nat} (hA : List.Forall₂ GroupText A hi) (hB : List.Forall₂ GroupText B lo)
    (hl : hi.length + lo.length ≤ 7) :
    groupsOf (orEmpty A ++ [] :: orEmpty B) = some (hi ++ List.replicate (8 - (hi.length + lo.length)) 0 ++ lo) := by
  have lA := hA.length_eq
  have lB := hB.length_eq
  have nA := groups_ne hA
  have nB := groups_ne hB
  have len : (orEmpty A ++ [] :: orEmpty B).length = (orEmpty A).length + 1 + (orEmpty B).length := by simp; omega
  have htail : (orEmpty A ++ [] :: orEmpty B).tail.dropLast = (orEmpty A).tail ++ [] :: (orEmpty B).dropLast := by
    rw [List.tail_append_of_ne_nil (orEmpty_ne A), List.dropLast_append_of_ne_nil (by simp), List.dropLast_cons_of_ne_nil (orEmpty_ne B)]
  have tA : [] ∉ (orEmpty A).tail := by
    unfold orEmpty; split
    · simp
    · exact fun h => nA (List.mem_of_mem_tail h)
  have tB : [] ∉ (orEmpty B).dropLast := by
    unfold orEmpty; split
    · simp
    · exact fun h => nB (List.dropLast_subset _ h)
  have hcount : ((orEmpty A).tail ++ [] :: (orEmpty B).dropLast).count [] = 1 := by
    rw [List.count_append, List.count_cons_self, List.count_eq_zero.2 tA, List.count_eq_zero.2 tB]
  have hidx : ((orEmpty A).tail ++ [] :: (orEmpty B).dropLast).idxOf [] = (orEmpty A).length - 1 := by
    rw [List.idxOf_append, if_neg tA]; simp
  have hfront : (orEmpty A ++ [] :: orEmpty B).head? = some [] ↔ A = [] := by
    rw [List.head?_append_of_ne_nil _ (orEmpty_ne A)]
    unfold orEmpty; split
    · simp_all
    · rename_i h
      simp only [h, iff_false]
      intro e; exact nA (List.mem_of_head? e)
  have hback : (orEmpty A ++ [] :: orEmpty B).getLast? = some [] ↔ B = [] := by
    rw [List.getLast?_append_of_ne_nil _ (by simp), List.getLast?_cons_of_ne_nil (orEmpty_ne B)]
    unfold orEmpty; split
    · simp_all
    · rename_i h
      simp only [h, iff_false]
      intro e; exact nB (List.mem_of_getLast? e)
  have pA : 1 ≤ (orEmpty A).length := List.length_pos_iff.2 (orEmpty_ne A)
  unfold groupsOf
  rw [if_neg (by rw [len, orEmpty_length, orEmpty_length]; split <;> split <;> omega)]
  simp only [htail, hcount, hidx, hfront, hback, len]
  rw [if_neg (by omega), if_pos trivial]
  have ehi : (if A = [] then (orEmpty A).length - 1 + 1 - 1 else (orEmpty A).length - 1 + 1) = hi.length := by
    rw [orEmpty_length]
    by_cases h : A = []
    · rw [← lA, h]; rfl
    · have := List.length_pos_iff.2 h
      simp only [if_neg h]; omega
  have elo : (if B = [] then (orEmpty A).length + 1 + (orEmpty B).length - ((orEmpty A).length - 1 + 1) - 2 else (orEmpty A).length + 1 + (orEmpty B).length - ((orEmpty A).length - 1 + 1) - 1) = lo.length := by
    rw [orEmpty_length B]
    by_cases h : B = []
    · rw [← lB, h]; simp; omega
    · simp only [if_neg h]; omega
  rw [ehi, elo, if_neg (by rintro ⟨rfl, h⟩; simp at lA; omega), if_neg (by rintro ⟨rfl, h⟩; simp at lB; omega), if_neg (by omega)]
  have etake : (orEmpty A ++ [] :: orEmpty B).take hi.length = A := by
    by_cases h : A = []
    · subst h; rw [← lA]; simp
    · have : orEmpty A = A := if_neg h
      rw [this, ← lA]; simp
  have edrop : (orEmpty A ++ [] :: orEmpty B).drop ((orEmpty A).length + 1 + (orEmpty B).length - lo.length) = B := by
    by_cases h : B = []
    · subst h; rw [← lB]; apply List.drop_eq_nil_of_le; simp; omega
    · have : orEmpty B = B := if_neg h
      rw [this, ← lB, Nat.add_sub_cancel]
      rw [show orEmpty A ++ [] :: B = (orEmpty A ++ [[]]) ++ B by simp]
      rw [List.drop_append_of_le_length (by simp)]
      simp
  rw [etake, edrop, fillGroups, (forall_mapM hextet_iff _ _).2 hA, (forall_mapM hextet_iff _ _).2 hB]

theorem groupsOf_iff (parts : List Str) (gs : List Nat) : groupsOf parts = some gs ↔
    (gs.length = 8 ∧ List.Forall₂ GroupText parts gs) ∨
    ∃ (A B : List Str) (hi lo : List Nat), List.Forall₂ GroupText A hi ∧ List.Forall₂ GroupText B lo ∧ hi.length + lo.length ≤ 7 ∧
      parts = orEmpty A ++ [] :: orEmpty B ∧ gs = hi ++ List.replicate (8 - (hi.length + lo.length)) 0 ++ lo := by
  constructor
  · intro h
    unfold groupsOf at h
    by_cases h9 : parts.length > 9
    · rw [if_pos h9] at h; simp at h
    rw [if_neg h9] at h
    simp only at h
    by_cases hc : parts.tail.dropLast.count [] > 1
    · rw [if_pos hc] at h; simp at h
    rw [if_neg hc] at h
    by_cases h1 : parts.tail.dropLast.count [] = 1
    · right
      rw [if_pos h1] at h
      have hm : [] ∈ parts.tail.dropLast := List.count_pos_iff.1 (by omega)
      obtain ⟨X, Y, hX, hn⟩ : ∃ X Y, parts.tail.dropLast = X ++ [] :: Y ∧ [] ∉ X := List.eq_append_cons_of_mem hm
      obtain ⟨p, q, hp⟩ : ∃ p q, parts = p :: (X ++ [] :: Y ++ [q]) := by
        cases parts with
        | nil => simp at hX
        | cons p r =>
          rw [List.tail_cons] at hX
          have hr : r ≠ [] := by rintro rfl; simp at hX
          exact ⟨p, r.getLast hr, by rw [← hX, List.dropLast_concat_getLast]⟩
      have e1 : (p :: (X ++ [] :: Y ++ [q])).tail.dropLast = X ++ [] :: Y := by
        rw [List.tail_cons, List.dropLast_concat]
      have e2 : (X ++ [] :: Y).idxOf [] = X.length := by
        rw [List.idxOf_append, if_neg hn]; simp
      have e3 : (p :: (X ++ [] :: Y ++ [q])).head? = some [] ↔ p = [] := by simp
      have e4 : (p :: (X ++ [] :: Y ++ [q])).getLast? = some [] ↔ q = [] := by
        rw [show p :: (X ++ [] :: Y ++ [q]) = (p :: (X ++ [] :: Y)) ++ [q] by simp, List.getLast?_concat]; simp
      have e5 : (p :: (X ++ [] :: Y ++ [q])).length = X.length + Y.length + 3 := by simp; omega
      subst hp
      simp only [e1, e2, e3, e4, e5] at h
      have et : (p :: (X ++ [] :: Y ++ [q])).take (X.length + 1) = p :: X := by simp
      have ed : (p :: (X ++ [] :: Y ++ [q])).drop (X.length + Y.length + 3 - (Y.length + 1)) = Y ++ [q] := by
        rw [show X.length + Y.length + 3 - (Y.length + 1) = (X.length + 1) + 1 by omega]; simp
      have fin : ∀ (A B : List Str), p :: X = orEmpty A → Y ++ [q] = orEmpty B → A.length + B.length ≤ 7 →
          fillGroups A (8 - (A.length + B.length)) B = some gs →
          ∃ (A B : List Str) (hi lo : List Nat), List.Forall₂ GroupText A hi ∧ List.Forall₂ GroupText B lo ∧ hi.length + lo.length ≤ 7 ∧
            p :: (X ++ [] :: Y ++ [q]) = orEmpty A ++ [] :: orEmpty B ∧ gs = hi ++ List.replicate (8 - (hi.length + lo.length)) 0 ++ lo := by
        intro A B hA hB hl h
        unfold fillGroups at h
        split at h
        · rename_i a b ha hb
          have fa := (forall_mapM hextet_iff _ _).1 ha
          have fb := (forall_mapM hextet_iff _ _).1 hb
          refine ⟨A, B, a, b, fa, fb, by rw [← fa.length_eq, ← fb.length_eq]; exact hl, by rw [← hA, ← hB]; simp, ?_⟩
          rw [← fa.length_eq, ← fb.length_eq]; exact (Option.some.inj h).symm
        · simp at h
      by_cases hp : p = [] <;> by_cases hq : q = []
      · rw [if_pos hp, if_pos hq] at h
        split at h
        · simp at h
        split at h
        · simp at h
        split at h
        · simp at h
        rename_i c1 c2 c3
        have x0 : X = [] := List.length_eq_zero_iff.1 (by by_contra hne; exact c1 ⟨hp, by omega⟩)
        have y0 : Y = [] := List.length_eq_zero_iff.1 (by by_contra hne; exact c2 ⟨hq, by omega⟩)
        subst x0 y0 hp hq
        refine fin [] [] rfl rfl (by simp) ?_
        simpa [Nat.add_assoc, Nat.add_comm, Nat.add_left_comm] using h
      · rw [if_pos hp, if_neg hq] at h
        split at h
        · simp at h
        split at h
        · simp at h
        split at h
        · simp at h
        rename_i c1 c2 c3
        have x0 : X = [] := List.length_eq_zero_iff.1 (by by_contra hne; exact c1 ⟨hp, by omega⟩)
        subst x0 hp
        rw [show ([] : List Str).length + Y.length + 3 - (([] : List Str).length + 1) - 1 = Y.length + 1 by simp] at h c3
        refine fin [] (Y ++ [q]) rfl (by simp [orEmpty]) (by simp at c3 ⊢; omega) ?_
        rw [ed] at h
        simpa [Nat.add_assoc, Nat.add_comm, Nat.add_left_comm] using h
      · rw [if_neg hp, if_pos hq] at h
        split at h
        · simp at h
        split at h
        · simp at h
        split at h
        · simp at h
        rename_i c1 c2 c3
        have y0 : Y = [] := List.length_eq_zero_iff.1 (by by_contra hne; exact c2 ⟨hq, by omega⟩)
        subst y0 hq
        rw [show X.length + ([] : List Str).length + 3 - (X.length + 1) - 2 = 0 by simp] at h c3
        refine fin (p :: X) [] (by simp [orEmpty]) rfl (by simp at c3 ⊢; omega) ?_
        rw [et] at h
        simpa [Nat.add_assoc, Nat.add_comm, Nat.add_left_comm] using h
      · rw [if_neg hp, if_neg hq] at h
        split at h
        · simp at h
        split at h
        · simp at h
        split at h
        · simp at h
        rename_i c1 c2 c3
        rw [show X.length + Y.length + 3 - (X.length + 1) - 1 = Y.length + 1 by omega] at h c3
        refine fin (p :: X) (Y ++ [q]) (by simp [orEmpty]) (by simp [orEmpty]) (by simp at c3 ⊢; omega) ?_
        rw [et, ed] at h
        simpa [Nat.add_assoc, Nat.add_comm, Nat.add_left_comm] using h
    · left
      rw [if_neg h1] at h
      by_cases h8 : parts.length ≠ 8
      · rw [if_pos h8] at h; simp at h
      rw [if_neg h8] at h
      split at h
      · simp at h
      have := (forall_mapM hextet_iff _ _).1 h
      exact ⟨by rw [← this.length_eq]; omega, this⟩
  · rintro (⟨h8, h⟩ | ⟨A, B, hi, lo, hA, hB, hl, rfl, rfl⟩)
    · have hne := groups_ne h
      have hlen := h.length_eq
      unfold groupsOf
      have hc : parts.tail.dropLast.count [] = 0 :=
        List.count_eq_zero.2 fun hm => hne (List.mem_of_mem_tail (List.dropLast_subset _ hm))
      simp only [hc]
      rw [if_neg (by omega), if_neg (by omega), if_neg (by omega), if_neg (by omega), if_neg]
      · exact (forall_mapM hextet_iff _ _).2 h
      · rintro (e | e)
        · exact hne (List.mem_of_head? e)
        · exact hne (List.mem_of_getLast? e)
    · exact groupsOf_short hA hB hl


/-! ## Texts of addresses -/

theorem v4_chars {s : Str} {b : Bytes} (h : V4Text s b) : '/' ∉ s ∧ ':' ∉ s ∧ '%' ∉ s ∧ '.' ∈ s ∧ b.length = 4 := by
  obtain ⟨x, y, z, w, p, q, r, t, rfl, rfl, o1, o2, o3, o4⟩ := h
  have := octet_chars o1; have := octet_chars o2; have := octet_chars o3; have := octet_chars o4
  simp only [List.mem_append, List.mem_cons]
  simp_all

theorem groups_chars {d : Bool} {s : Str} {ns : List Nat} (h : GroupsText d s ns) : '/' ∉ s ∧ '%' ∉ s ∧ s ≠ [] ∧ ns ≠ [] ∧ ∀ n ∈ ns, n < 65536 := by
  have hbyte : ∀ a b : UInt8, a.toNat * 256 + b.toNat < 65536 := fun a b => by have := a.toNat_lt; have := b.toNat_lt; omega
  induction h with
  | one s n h => have := group_chars h; simp_all
  | more s n t ns h _ ih => have := group_chars h; simp_all
  | dotted s p q r t _ h =>
    have := v4_chars h
    refine ⟨this.1, this.2.2.1, fun e => ?_, by simp, ?_⟩
    · rw [e] at this; simp at this
    · intro n hn; simp only [List.mem_cons, List.not_mem_nil, or_false] at hn; rcases hn with rfl | rfl <;> exact hbyte _ _

theorem v6_chars {s : Str} {gs : List Nat} (h : V6Text s gs) : '/' ∉ s ∧ '%' ∉ s ∧ gs.length = 8 ∧ ∀ n ∈ gs, n < 65536 := by
  cases h with
  | full _ _ h h8 => have := groups_chars h; exact ⟨this.1, this.2.1, h8, this.2.2.2.2⟩
  | short l hi r lo hl hr h7 =>
    have cl : '/' ∉ l ∧ '%' ∉ l ∧ ∀ n ∈ hi, n < 65536 := by
      rcases hl with ⟨rfl, rfl⟩ | hl
      · simp
      · have := groups_chars hl; exact ⟨this.1, this.2.1, this.2.2.2.2⟩
    have cr : '/' ∉ r ∧ '%' ∉ r ∧ ∀ n ∈ lo, n < 65536 := by
      rcases hr with ⟨rfl, rfl⟩ | hr
      · simp
      · have := groups_chars hr; exact ⟨this.1, this.2.1, this.2.2.2.2⟩
    simp only [List.mem_append, List.mem_cons, List.length_append, List.length_replicate, List.mem_replicate]
    refine ⟨by simp_all, by simp_all, by omega, ?_⟩
    rintro n ((h | h) | h)
    · exact cl.2.2 n h
    · omega
    · exact cr.2.2 n h

theorem v6_colons {s : Str} {gs : List Nat} (h : V6Text s gs) : ':' ∈ s := by
  cases h with
  | full _ _ h h8 =>
    cases h with
    | one => simp at h8
    | more => simp
    | dotted => simp at h8
  | short => simp

theorem splitAll_app' {c : Char} (a r : Str) : splitAll c (a ++ c :: r) = splitAll c a ++ splitAll c r := by
  induction a with
  | nil => rw [List.nil_append]; simp [splitAll]
  | cons x a ih =>
    rw [List.cons_append, splitAll, splitAll]
    by_cases h : x = c
    · rw [if_pos h, if_pos h, ih]; rfl
    · rw [if_neg h, if_neg h, ih]
      cases hs : splitAll c a with
      | nil => exact absurd hs (join_splitC c a).2
      | cons p ps => simp

theorem split_short (l r : Str) : splitAll ':' (l ++ ':' :: ':' :: r) = splitAll ':' l ++ [] :: splitAll ':' r := by
  rw [splitAll_app', splitAll, if_pos rfl]

theorem split_left {l : Str} {A : List Str} {hi : List Nat} (h : List.Forall₂ GroupText A hi) (hs : splitAll ':' l = orEmpty A) :
    l = [] ∧ hi = [] ∨ GroupsText false l hi := by
  by_cases hA : A = []
  · left
    subst hA
    cases h
    refine ⟨?_, rfl⟩
    rw [← (join_splitC ':' l).1, hs]; simp [orEmpty]
  · right
    rw [groupsFalse_iff, hs, show orEmpty A = A from if_neg hA]
    refine ⟨?_, h⟩
    rintro rfl; cases h; exact hA rfl

theorem splitAll_mem (c : Char) (s : Str) : ∀ p ∈ splitAll c s, c ∉ p := by
  induction s with
  | nil => simp [splitAll]
  | cons x s ih =>
    rw [splitAll]
    split
    · intro p hp
      rcases List.mem_cons.1 hp with rfl | hp
      · simp
      · exact ih p hp
    · rename_i hx
      split
      · simp [Ne.symm hx]
      · rename_i q qs hq
        intro p hp
        rw [hq] at ih
        rcases List.mem_cons.1 hp with rfl | hp
        · have := ih q (by simp)
          simp only [List.mem_cons, not_or]
          exact ⟨fun e => hx e.symm, this⟩
        · exact ih p (by simp [hp])

theorem hexStr_ne (n : Nat) : hexStr n ≠ [] := Nat.toDigits_ne_nil

theorem expand_parts {ps P : List Str} {B : List Str} (h : expandV4 ps = some (P ++ [] :: orEmpty B)) :
    ∃ R, R ≠ [] ∧ ps = P ++ [] :: R ∧ expandV4 R = some (orEmpty B) := by
  have plain : ps = P ++ [] :: orEmpty B → expandV4 ps = some ps → ∃ R, R ≠ [] ∧ ps = P ++ [] :: R ∧ expandV4 R = some (orEmpty B) := by
    intro e h
    refine ⟨orEmpty B, orEmpty_ne B, e, ?_⟩
    have h' := h
    rw [e, show P ++ [] :: orEmpty B = (P ++ [[]]) ++ orEmpty B by simp, expand_app _ (orEmpty_ne B), Option.map_eq_some_iff] at h'
    obtain ⟨x, hx, hy⟩ := h'
    rw [hx, List.append_cancel_left hy]
  have h0 := h
  unfold expandV4 at h
  split at h
  · exact plain (Option.some.inj h) (by rw [h0, Option.some.inj h])
  rename_i l hl
  split at h
  · rename_i hdot
    split at h
    · rename_i a b c d hv
      have h := Option.some.inj h
      have hps : ps = ps.dropLast ++ [l] := by
        have hne : ps ≠ [] := by rintro rfl; simp at hl
        rw [List.getLast?_eq_getLast_of_ne_nil hne] at hl
        rw [← Option.some.inj hl, List.dropLast_concat_getLast]
      generalize hD : ps.dropLast = D at h hps
      obtain ⟨h1, hh1⟩ : ∃ h1, hexStr (a.toNat * 256 + b.toNat) = h1 := ⟨_, rfl⟩
      obtain ⟨h2, hh2⟩ : ∃ h2, hexStr (c.toNat * 256 + d.toNat) = h2 := ⟨_, rfl⟩
      rw [hh1, hh2] at h
      rcases List.eq_nil_or_concat (orEmpty B) with e | ⟨Bs, x, e⟩
      · exact absurd e (orEmpty_ne B)
      rw [List.concat_eq_append] at e
      rw [e, show D ++ [h1, h2] = (D ++ [h1]) ++ [h2] by simp, show P ++ [] :: (Bs ++ [x]) = (P ++ [] :: Bs) ++ [x] by simp] at h
      obtain ⟨h, hx⟩ := List.append_inj' h (by simp)
      rcases List.eq_nil_or_concat Bs with e' | ⟨Cs, y, e'⟩
      · subst e'
        obtain ⟨-, hy⟩ := List.append_inj' h (by simp)
        exact absurd (hh1.trans (List.cons.inj hy).1) (hexStr_ne _)
      · rw [List.concat_eq_append] at e'
        rw [e', show P ++ [] :: (Cs ++ [y]) = (P ++ [] :: Cs) ++ [y] by simp] at h
        obtain ⟨hP, hy⟩ := List.append_inj' h (by simp)
        refine ⟨Cs ++ [l], by simp, by rw [hps, hP]; simp, ?_⟩
        rw [expand_app _ (by simp), e, e', ← (List.cons.inj hy).1, ← (List.cons.inj hx).1, ← hh1, ← hh2]
        simp only [expandV4, List.getLast?_singleton, hv]
        rw [if_pos hdot]
        simp
    · simp at h
  · exact plain (Option.some.inj h) (by rw [h0, Option.some.inj h])

/-- `IPv6Address._ip_int_from_string`. -/
theorem v6_iff (s : Str) (gs : List Nat) :
    (¬ (splitAll ':' s).length < 3 ∧ ∃ parts, expandV4 (splitAll ':' s) = some parts ∧ groupsOf parts = some gs) ↔ V6Text s gs := by
  constructor
  · rintro ⟨h3, parts, hx, hg⟩
    rcases (groupsOf_iff _ _).1 hg with ⟨h8, h⟩ | ⟨A, B, hi, lo, hA, hB, hl, rfl, rfl⟩
    · exact .full _ _ ((groupsTrue_iff _ _).2 ⟨_, hx, h⟩) h8
    · obtain ⟨R, hR, hs, hxR⟩ := expand_parts hx
      have hno : ∀ p ∈ orEmpty A ++ [] :: R, ':' ∉ p := hs ▸ splitAll_mem ':' s
      have sl : splitAll ':' (List.intercalate [':'] (orEmpty A)) = orEmpty A := split_joinC (orEmpty_ne A) fun p hp => hno p (by simp [hp])
      have sr : splitAll ':' (List.intercalate [':'] R) = R := split_joinC hR fun p hp => hno p (by simp [hp])
      have es : s = List.intercalate [':'] (orEmpty A) ++ ':' :: ':' :: List.intercalate [':'] R := by
        rw [← (join_splitC ':' s).1, hs, ← (join_splitC ':' (List.intercalate [':'] (orEmpty A) ++ ':' :: ':' :: List.intercalate [':'] R)).1, split_short, sl, sr]
      rw [es]
      refine .short _ _ _ _ (split_left hA sl) ?_ hl
      by_cases hb : B = []
      · left
        subst hb
        cases hB
        refine ⟨?_, rfl⟩
        have : R = [[]] := by
          unfold expandV4 at hxR
          split at hxR
          · exact Option.some.inj hxR
          split at hxR
          · split at hxR
            · have e := congrArg List.length (Option.some.inj hxR)
              rw [List.length_append] at e
              simp [orEmpty] at e
            · simp at hxR
          · exact Option.some.inj hxR
        rw [this]; simp
      · right
        rw [groupsTrue_iff, sr]
        exact ⟨B, by rw [hxR, orEmpty, if_neg hb], hB⟩
  · intro h
    cases h with
    | full _ _ h h8 =>
      obtain ⟨ps, h1, h2⟩ := (groupsTrue_iff _ _).1 h
      refine ⟨?_, ps, h1, (groupsOf_iff _ _).2 (.inl ⟨h8, h2⟩)⟩
      have e := h2.length_eq
      have n0 := List.length_pos_iff.2 (join_splitC ':' s).2
      have : ps.length ≤ (splitAll ':' s).length + 1 := by
        unfold expandV4 at h1
        split at h1
        · rw [Option.some.inj h1]; omega
        split at h1
        · split at h1
          · rw [← Option.some.inj h1, List.length_append, List.length_dropLast]; simp only [List.length_cons, List.length_nil]; omega
          · simp at h1
        · rw [Option.some.inj h1]; omega
      omega
    | short l hi r lo hl hr h7 =>
      rw [split_short]
      have n1 := List.length_pos_iff.2 (join_splitC ':' l).2
      have n2 := List.length_pos_iff.2 (join_splitC ':' r).2
      refine ⟨by simp; omega, ?_⟩
      obtain ⟨A, hA, eA⟩ : ∃ A, List.Forall₂ GroupText A hi ∧ splitAll ':' l = orEmpty A := by
        rcases hl with ⟨rfl, rfl⟩ | hl
        · exact ⟨[], .nil, rfl⟩
        · obtain ⟨hne, hl⟩ := (groupsFalse_iff _ _).1 hl
          refine ⟨_, hl, ?_⟩
          rw [orEmpty, if_neg (join_splitC ':' l).2]
      obtain ⟨B, hB, eB⟩ : ∃ B, List.Forall₂ GroupText B lo ∧ expandV4 (splitAll ':' r) = some (orEmpty B) := by
        rcases hr with ⟨rfl, rfl⟩ | hr
        · exact ⟨[], .nil, rfl⟩
        · have hne := (groups_chars hr).2.2.2.1
          obtain ⟨ps, h1, h2⟩ := (groupsTrue_iff _ _).1 hr
          refine ⟨_, h2, ?_⟩
          rw [orEmpty, if_neg (by rintro rfl; cases h2; exact hne rfl), h1]
      refine ⟨orEmpty A ++ [] :: orEmpty B, ?_, groupsOf_short hA hB h7⟩
      rw [show splitAll ':' l ++ [] :: splitAll ':' r = (splitAll ':' l ++ [[]]) ++ splitAll ':' r by simp,
        expand_app _ (join_splitC ':' r).2, eB, eA]
      simp


theorem dropScope_iff (s t : Str) : dropScope s = some t ↔
    (s = t ∧ '%' ∉ s) ∨ ∃ scope, scope ≠ [] ∧ '%' ∉ scope ∧ '%' ∉ t ∧ s = t ++ '%' :: scope := by
  unfold dropScope
  by_cases h : '%' ∈ s
  · rw [if_pos (by simpa using h)]
    obtain ⟨a, b, rfl, ha⟩ := List.eq_append_cons_of_mem h
    have hall : ∀ x ∈ a, (x != '%') = true := by intro x hx; simp; rintro rfl; exact ha hx
    have e1 : (a ++ '%' :: b).takeWhile (· != '%') = a := by
      rw [List.takeWhile_append_of_pos hall]; simp
    have e2 : (a ++ '%' :: b).dropWhile (· != '%') = '%' :: b := by
      rw [List.dropWhile_append_of_pos hall]; simp
    simp only [e1, e2, List.tail_cons]
    constructor
    · intro h
      split at h
      · simp at h
      · rename_i hb
        have := Option.some.inj h; subst this
        exact .inr ⟨b, fun e => hb (.inl e), fun e => hb (.inr (by simpa using e)), ha, rfl⟩
    · rintro (⟨rfl, h⟩ | ⟨scope, h1, h2, h3, h4⟩)
      · simp at h
      · have : t = a ∧ scope = b := by
          have f1 : (t ++ '%' :: scope).takeWhile (· != '%') = t := by
            rw [List.takeWhile_append_of_pos (by intro x hx; simp; rintro rfl; exact h3 hx)]; simp
          rw [← h4, e1] at f1
          subst f1
          exact ⟨rfl, by simpa using h4.symm⟩
        obtain ⟨rfl, rfl⟩ := this
        rw [if_neg (by simp [h1, h2])]
  · rw [if_neg (by simpa using h)]
    constructor
    · intro e; have := Option.some.inj e; subst this; exact .inl ⟨rfl, h⟩
    · rintro (⟨rfl, -⟩ | ⟨scope, -, -, -, rfl⟩)
      · rfl
      · simp at h

theorem parseV6_iff (s : Str) (b : Bytes) : parseV6 s = some b ↔ ∃ (t : Str) (gs : List Nat), V6Text t gs ∧ b = groupBytes gs ∧
    (s = t ∨ ∃ scope : Str, scope ≠ [] ∧ '%' ∉ scope ∧ '/' ∉ scope ∧ s = t ++ '%' :: scope) := by
  have hpack : ∀ gs, packGroups gs = groupBytes gs := fun gs => by rw [packGroups, groupBytes, List.flatMap_def]
  unfold parseV6
  constructor
  · intro h
    split at h
    · simp at h
    rename_i hs
    split at h
    · simp at h
    rename_i t ht
    split at h
    · simp at h
    rename_i h3
    split at h
    · simp at h
    rename_i parts hp
    rw [Option.map_eq_some_iff] at h
    obtain ⟨gs, hg, rfl⟩ := h
    refine ⟨t, gs, (v6_iff _ _).1 ⟨h3, parts, hp, hg⟩, hpack gs, ?_⟩
    rcases (dropScope_iff _ _).1 ht with ⟨rfl, -⟩ | ⟨scope, h1, h2, -, rfl⟩
    · exact .inl rfl
    · refine .inr ⟨scope, h1, h2, fun hm => hs (by simp [hm]), rfl⟩
  · rintro ⟨t, gs, h, rfl, hs⟩
    have hc := v6_chars h
    obtain ⟨h3, parts, hp, hg⟩ := (v6_iff _ _).2 h
    have hd : dropScope s = some t := by
      rw [dropScope_iff]
      rcases hs with rfl | ⟨scope, h1, h2, -, rfl⟩
      · exact .inl ⟨rfl, hc.2.1⟩
      · exact .inr ⟨scope, h1, h2, hc.2.1, rfl⟩
    rw [if_neg (by
      rcases hs with rfl | ⟨scope, -, -, hsl, rfl⟩
      · simpa using hc.1
      · have := hc.1; simp [this, hsl])]
    simp only [hd]
    rw [if_neg h3]
    simp only [hp, hg, Option.map_some, hpack]

/-- **C129** (reading). Which texts are IP addresses, and which: exactly those of the published grammar. -/
theorem C129_text (s : Str) (b : Bytes) : parseIp s = some b ↔ IpText s b := by
  unfold parseIp IpText
  rw [← parseV6_iff, ← v4_iff]
  cases h : parseV4 s with
  | some c =>
    simp only [Option.some.injEq]
    constructor
    · exact .inl
    · rintro (h' | h')
      · exact h'
      · have h := (v4_iff _ _).1 h
        obtain ⟨t, gs, ht, -, hs⟩ := (parseV6_iff _ _).1 h'
        have := v6_colons ht
        refine absurd ?_ (v4_chars h).2.1
        rcases hs with rfl | ⟨_, _, _, _, rfl⟩
        · exact this
        · simp [this]
  | none => simp


/-! ## Writing -/

theorem hexStr_zero (n : Nat) : hexStr n = ['0'] ↔ n = 0 := by
  constructor
  · intro h; exact toDigits_head n (by rw [show Nat.toDigits 16 n = hexStr n from rfl, h]; rfl)
  · rintro rfl; rfl

theorem zerosAt_snoc (P : List Nat) (x j m : Nat) : ZerosAt (P ++ [x]) j m ↔
    ZerosAt P j m ∨ (j + m = P.length + 1 ∧ (m = 0 ∨ x = 0 ∧ ZerosAt P j (m - 1))) := by
  unfold ZerosAt
  simp only [List.length_append, List.length_singleton]
  constructor
  · rintro ⟨h1, h2⟩
    by_cases h : j + m ≤ P.length
    · refine .inl ⟨h, fun k a b => ?_⟩
      have := h2 k a b
      rwa [List.getElem?_append_left (by omega)] at this
    · refine .inr ⟨by omega, ?_⟩
      by_cases hm : m = 0
      · exact .inl hm
      · refine .inr ⟨?_, by omega, fun k a b => ?_⟩
        · have := h2 P.length (by omega) (by omega)
          simpa using this
        · have := h2 k a (by omega)
          rwa [List.getElem?_append_left (by omega)] at this
  · rintro (⟨h1, h2⟩ | ⟨h1, h2⟩)
    · refine ⟨by omega, fun k a b => ?_⟩
      rw [List.getElem?_append_left (by omega)]; exact h2 k a b
    · refine ⟨by omega, fun k a b => ?_⟩
      rcases h2 with h2 | ⟨hx, h3, h4⟩
      · omega
      by_cases hk : k = P.length
      · subst hk; simp [hx]
      · rw [List.getElem?_append_left (by omega)]; exact h4 k a (by omega)

/-- What the loop knows after the groups `P`. -/
structure RunInv (P : List Nat) (z : ZeroRun) : Prop where
  index : z.index = P.length
  run : ZerosAt P (P.length - z.len) z.len
  runLen : z.len ≤ P.length
  start : 0 < z.len → z.start = P.length - z.len
  trail : ∀ j m, j + m = P.length → ZerosAt P j m → m ≤ z.len
  best : ZerosAt P z.bestStart z.bestLen
  most : ∀ j m, ZerosAt P j m → m ≤ z.bestLen
  first : 0 < z.bestLen → ∀ j, ZerosAt P j z.bestLen → z.bestStart ≤ j

theorem runInv (P : List Nat) : RunInv P ((P.map hexStr).foldl ZeroRun.step ⟨0, 0, 0, 0, 0⟩) := by
  induction P using List.reverseRecOn with
  | nil =>
    have hz : ∀ j m, ZerosAt [] j m → m = 0 := by rintro j m ⟨h, -⟩; simp at h; omega
    exact ⟨rfl, ⟨by simp, fun k a b => by simp at b⟩, by simp, by simp, fun j m _ h => by rw [hz j m h]; simp,
      ⟨by simp, fun k a b => by simp at b⟩, fun j m h => by rw [hz j m h]; simp, by simp⟩
  | append_singleton P x ih =>
    rw [List.map_append, List.foldl_append]
    generalize (P.map hexStr).foldl ZeroRun.step ⟨0, 0, 0, 0, 0⟩ = z at ih
    obtain ⟨bs, bl, st, ln, ix⟩ := z
    obtain ⟨hidx, hrun, hlen, hstart, htrail, hbest, hmost, hfirst⟩ := ih
    simp only at hidx hrun hlen hstart htrail hbest hmost hfirst
    simp only [List.map_cons, List.map_nil, List.foldl_cons, List.foldl_nil, ZeroRun.step, hexStr_zero]
    by_cases hx : x = 0
    · rw [if_pos hx]
      have hst : (if ln = 0 then ix else st) = P.length - ln := by
        split
        · omega
        · exact hstart (by omega)
      have hnew : ZerosAt (P ++ [x]) (P.length - ln) (ln + 1) := (zerosAt_snoc _ _ _ _).2 (.inr ⟨by omega, .inr ⟨hx, by simpa using hrun⟩⟩)
      have htr : ∀ j m, j + m = (P ++ [x]).length → ZerosAt (P ++ [x]) j m → m ≤ ln + 1 := by
        intro j m hjm h
        rw [List.length_append, List.length_singleton] at hjm
        rcases (zerosAt_snoc _ _ _ _).1 h with h | ⟨-, rfl | ⟨-, h⟩⟩
        · have := h.1; omega
        · omega
        · by_cases hm : m = 0
          · omega
          · have := htrail j (m - 1) (by omega) h; omega
      rw [hst]
      split
      · rename_i hb
        refine ⟨by simp [hidx], by simpa using hnew, by simp; omega, by simp, htr, hnew, fun j m h => ?_, fun _ j h => ?_⟩
        · rcases (zerosAt_snoc _ _ _ _).1 h with h' | ⟨hjm, -⟩
          · have := hmost j m h'; simp only; omega
          · exact htr j m (by simpa using hjm) h
        · simp only at h ⊢
          rcases (zerosAt_snoc _ _ _ _).1 h with h' | ⟨hjm, -⟩
          · have := hmost j _ h'; omega
          · omega
      · rename_i hb
        refine ⟨by simp [hidx], by simpa using hnew, by simp; omega, by simp, htr, (zerosAt_snoc _ _ _ _).2 (.inl hbest), fun j m h => ?_, fun hp j h => ?_⟩
        · rcases (zerosAt_snoc _ _ _ _).1 h with h' | ⟨hjm, -⟩
          · exact hmost j m h'
          · have := htr j m (by simpa using hjm) h; simp only; omega
        · simp only at h hp ⊢
          rcases (zerosAt_snoc _ _ _ _).1 h with h' | ⟨hjm, -⟩
          · exact hfirst hp j h'
          · have := hbest.1
            by_cases e : bs ≤ j
            · exact e
            · omega
    · rw [if_neg hx]
      have hold : ∀ j m, ZerosAt (P ++ [x]) j m → 0 < m → ZerosAt P j m := by
        intro j m h hm
        rcases (zerosAt_snoc _ _ _ _).1 h with h | ⟨-, h | ⟨h, -⟩⟩
        · exact h
        · omega
        · exact absurd h hx
      refine ⟨by simp [hidx], ⟨by simp, fun k a b => by simp at a b; omega⟩, by simp, by simp, fun j m hjm h => ?_, (zerosAt_snoc _ _ _ _).2 (.inl hbest), fun j m h => ?_, fun hp j h => ?_⟩
      · by_cases hm : m = 0
        · simp [hm]
        · have := (hold j m h (by omega)).1; rw [List.length_append, List.length_singleton] at hjm; omega
      · by_cases hm : m = 0
        · simp [hm]
        · exact hmost j m (hold j m h (by omega))
      · exact hfirst hp j (hold j _ h hp)

theorem colons_app {X Y : List Str} (hX : X ≠ []) (hY : Y ≠ []) : colons (X ++ Y) = colons X ++ ':' :: colons Y := by
  unfold colons
  induction X with
  | nil => exact absurd rfl hX
  | cons x X ih =>
    cases X with
    | nil =>
      obtain ⟨y, Y, rfl⟩ := List.exists_cons_of_ne_nil hY
      simp [List.intercalate]
    | cons x' X =>
      have e : ∀ (a b : Str) (r : List Str), List.intercalate [':'] (a :: b :: r) = a ++ ':' :: List.intercalate [':'] (b :: r) := by
        intro a b r; simp [List.intercalate]
      rw [List.cons_append, List.cons_append, e, ← List.cons_append, ih (by simp), e]
      simp

theorem colons_orEmpty (A : List Str) : colons (orEmpty A) = colons A := by
  unfold orEmpty; split
  · rename_i h; rw [h]; simp [colons]
  · rfl

theorem canonV6_of {b : Bytes} (h4 : b.length ≠ 4) (hg : ∀ g ∈ unpackGroups b, g < 65536) : CanonV6 (printIp b) (unpackGroups b) := by
  have hfor : ∀ gs : List Nat, (∀ g ∈ gs, g < 65536) → List.Forall₂ CanonGroup (gs.map hexStr) gs := by
    intro gs h
    induction gs with
    | nil => exact .nil
    | cons g gs ih => exact .cons (hexStr_canon (h g (by simp))) (ih fun x hx => h x (by simp [hx]))
  rw [printIp, if_neg h4]
  generalize unpackGroups b = gs at hg
  have hi := runInv gs
  unfold compressGroups
  generalize (gs.map hexStr).foldl ZeroRun.step ⟨0, 0, 0, 0, 0⟩ = z at hi
  obtain ⟨bs, bl, st, ln, ix⟩ := z
  simp only
  split
  · rename_i hb
    right
    have hbest := hi.best
    simp only at hbest
    refine ⟨bs, bl, (gs.take bs).map hexStr, (gs.drop (bs + bl)).map hexStr, hb, hbest, hi.most, hi.first (by simp only; omega),
      hfor _ fun g h => hg g (List.mem_of_mem_take h), hfor _ fun g h => hg g (List.mem_of_mem_drop h), ?_⟩
    have hl := hbest.1
    have ex : (if bs = 0 then [[]] else []) ++ (gs.map hexStr).take bs ++ [[]] ++ (gs.map hexStr).drop (bs + bl) ++ (if bs + bl = (gs.map hexStr).length then [[]] else [])
        = orEmpty ((gs.take bs).map hexStr) ++ ([[]] ++ orEmpty ((gs.drop (bs + bl)).map hexStr)) := by
      rw [List.length_map, List.map_take, List.map_drop]
      have e1 : (if bs = 0 then [[]] else []) ++ (gs.map hexStr).take bs = orEmpty ((gs.map hexStr).take bs) := by
        by_cases h0 : bs = 0
        · rw [h0]; rfl
        · rw [if_neg h0, orEmpty, if_neg]
          · rfl
          · intro e; have := congrArg List.length e; simp at this; rcases this with h | h
            · omega
            · subst h; simp at hl; omega
      have e2 : (gs.map hexStr).drop (bs + bl) ++ (if bs + bl = gs.length then [[]] else []) = orEmpty ((gs.map hexStr).drop (bs + bl)) := by
        by_cases h0 : bs + bl = gs.length
        · rw [if_pos h0, List.drop_eq_nil_of_le (by simp; omega)]; rfl
        · rw [if_neg h0, orEmpty, if_neg]
          · simp
          · intro e; have := congrArg List.length e; simp at this; omega
      rw [e1, ← e2]; simp
    rw [ex]
    show colons _ = _
    rw [colons_app (orEmpty_ne _) (by simp), colons_app (by simp) (orEmpty_ne _), colons_orEmpty, colons_orEmpty]
    simp [colons]
  · rename_i hb
    left
    refine ⟨?_, _, hfor gs hg, rfl⟩
    rintro ⟨i, h⟩
    have := hi.most i 2 h
    simp only at this
    omega

theorem groups_mono {d : Bool} {s : Str} {ns : List Nat} (h : GroupsText d s ns) : GroupsText true s ns := by
  induction h with
  | one s n h => exact .one _ _ h
  | more s n t ns h _ ih => exact .more _ _ _ _ h ih
  | dotted s p q r t _ h => exact .dotted _ _ _ _ _ rfl h

theorem colons_groups {ps : List Str} {ns : List Nat} (h : List.Forall₂ CanonGroup ps ns) : colons ps = [] ∧ ns = [] ∨ GroupsText false (colons ps) ns := by
  cases h with
  | nil => exact .inl ⟨by simp [colons], rfl⟩
  | cons h1 h2 =>
    right
    have hf : List.Forall₂ GroupText _ _ := (List.Forall₂.cons h1 h2).imp fun _ _ h => h.1
    rw [groupsFalse_iff]
    refine ⟨by simp, ?_⟩
    rw [colons, split_joinC (by simp) (fun w hw => (forall_mem (Q := fun s => ':' ∉ s) (fun _ _ h => (group_chars h).2.2.2.1) hf) w hw)]
    exact hf

theorem canon_v6 {s : Str} {gs : List Nat} (h8 : gs.length = 8) (h : CanonV6 s gs) : V6Text s gs := by
  rcases h with ⟨-, ps, hp, rfl⟩ | ⟨i, n, ps, qs, h2, hz, -, -, hp, hq, rfl⟩
  · rcases colons_groups hp with ⟨-, rfl⟩ | h
    · simp at h8
    · exact .full _ _ (groups_mono h) h8
  · have hsplit : gs = gs.take i ++ List.replicate n 0 ++ gs.drop (i + n) := by
      apply List.ext_getElem?
      intro k
      have := hz.1
      by_cases h1 : k < i
      · rw [List.append_assoc, List.getElem?_append_left (by simp; omega), List.getElem?_take, if_pos h1]
      · by_cases h2 : k < i + n
        · rw [hz.2 k (by omega) h2, List.getElem?_append_left (by simp; omega), List.getElem?_append_right (by simp; omega), List.getElem?_replicate, if_pos (by simp; omega)]
        · rw [List.getElem?_append_right (by simp; omega), List.getElem?_drop]
          congr 1
          simp; omega
    have h := V6Text.short (colons ps) (gs.take i) (colons qs) (gs.drop (i + n)) (colons_groups hp)
      ((colons_groups hq).imp id groups_mono) (by have := hz.1; simp; omega)
    have e : 8 - ((gs.take i).length + (gs.drop (i + n)).length) = n := by have := hz.1; simp; omega
    rw [e, ← hsplit] at h
    exact h

theorem unpack_spec : ∀ (n : Nat) {b : Bytes}, b.length = 2 * n →
    groupBytes (unpackGroups b) = b ∧ (unpackGroups b).length = n ∧ ∀ g ∈ unpackGroups b, g < 65536
  | 0, b, h => by
    have : b = [] := List.length_eq_zero_iff.1 h
    subst this; simp [unpackGroups, groupBytes]
  | n + 1, b, h => by
    match b, h with
    | x :: y :: r, h =>
      obtain ⟨h1, h2, h3⟩ := unpack_spec n (b := r) (by simp at h; omega)
      have hx := x.toNat_lt
      have hy := y.toNat_lt
      have e1 : (x.toNat * 256 + y.toNat) / 256 = x.toNat := by omega
      have e2 : (x.toNat * 256 + y.toNat) % 256 = y.toNat := by omega
      refine ⟨?_, by simp [unpackGroups, h2], ?_⟩
      · rw [unpackGroups, groupBytes, List.map_cons, List.flatten_cons, e1, e2]
        show _ ++ groupBytes _ = _
        rw [h1]; simp
      · intro g hg
        rw [unpackGroups] at hg
        rcases List.mem_cons.1 hg with rfl | hg
        · omega
        · exact h3 g hg
    | [_], h => simp at h; omega
    | [], h => simp at h

theorem natStr_octet (x : UInt8) : OctetText (natStr x.toNat) x.toNat := by
  rw [← octet_iff]
  have : ∀ n : Fin 256, parseOctet (natStr n.val) = some n.val := by decide +kernel
  exact this ⟨x.toNat, x.toNat_lt⟩

theorem print_v4 (p q r t : UInt8) : V4Text (printIp [p, q, r, t]) [p, q, r, t] := by
  refine ⟨_, _, _, _, p, q, r, t, ?_, rfl, natStr_octet p, natStr_octet q, natStr_octet r, natStr_octet t⟩
  simp [printIp, List.intercalate]

/-- **C129** (writing). An IPv4 address is written as its four numbers in decimal, an IPv6 address in its canonical form. -/
theorem C129_writes :
    (∀ b : Bytes, b.length = 4 → V4Text (printIp b) b) ∧
    ∀ b : Bytes, b.length = 16 → ∃ gs : List Nat, gs.length = 8 ∧ groupBytes gs = b ∧ CanonV6 (printIp b) gs ∧ V6Text (printIp b) gs := by
  constructor
  · intro b h
    match b, h with
    | [p, q, r, t], _ => exact print_v4 p q r t
  · intro b h
    obtain ⟨h1, h2, h3⟩ := unpack_spec 8 (b := b) (by omega)
    have := canonV6_of (b := b) (by omega) h3
    exact ⟨_, h2, h1, this, canon_v6 h2 this⟩

/-- **C129** (round trip). What is written for an address is read as that address. -/
theorem C129_roundtrip (b : Bytes) (h : b.length = 4 ∨ b.length = 16) : parseIp (printIp b) = some b := by
  rw [C129_text]
  rcases h with h | h
  · exact .inl (C129_writes.1 b h)
  · obtain ⟨gs, -, h1, -, h2⟩ := C129_writes.2 b h
    exact .inr ⟨_, gs, h2, h1.symm, .inl rfl⟩

theorem ip_size {s : Str} {b : Bytes} (h : IpText s b) : b.length = 4 ∨ b.length = 16 := by
  rcases h with h | ⟨t, gs, h, rfl, -⟩
  · exact .inl (v4_chars h).2.2.2.2
  · right
    have h8 := (v6_chars h).2.2.1
    have : ∀ gs : List Nat, (groupBytes gs).length = 2 * gs.length := by
      intro gs
      induction gs with
      | nil => rfl
      | cons g gs ih => rw [groupBytes, List.map_cons, List.flatten_cons, List.length_append]; rw [groupBytes] at ih; rw [ih]; simp; omega
    rw [this, h8]

theorem hostChars {s : Str} (h : GoodHost s) : (∃ c, s.getLast? = some c ∧ IsLetter c) ∧ ':' ∉ s := by
  have hl : ¬ IsLetter ':' := by unfold IsLetter; decide
  have hd : ¬ IsDigit ':' := by unfold IsDigit; decide
  have top : ∀ {n m : Nat} {t : Str}, 2 ≤ n → TopLevel n m t → (∃ c, t.getLast? = some c ∧ IsLetter c) ∧ ':' ∉ t := by
    rintro n m t h2 ⟨h, -, hc⟩
    have hne : t ≠ [] := by rintro rfl; simp at h; omega
    refine ⟨⟨t.getLast hne, List.getLast?_eq_getLast_of_ne_nil hne, hc _ (List.getLast_mem hne)⟩, fun hm => hl (hc _ hm)⟩
  obtain ⟨label, rest, rfl, hlab, hrest⟩ := h
  have c1 : ':' ∉ label := by
    rcases hlab with ⟨a, rfl, ha⟩ | ⟨a, b, rfl, hab⟩ | ⟨-, -, -, -, hc⟩
    · simp only [List.mem_singleton]; rintro rfl; exact hl ha
    · simp only [List.mem_cons, List.not_mem_nil, or_false]
      rintro (rfl | rfl)
      · rcases hab with h | h | h
        exacts [hl h.1, hl h.1, hd h.1]
      · rcases hab with h | h | h
        exacts [hl h.2, hd h.2, hl h.2]
    · intro hm
      rcases hc _ hm with h | h | h | h
      exacts [hl h, hd h, absurd h (by decide), absurd h (by decide)]
  have key : (∃ c, rest.getLast? = some c ∧ IsLetter c) ∧ ':' ∉ rest := by
    rcases hrest with h | ⟨mid, t, rfl, -, -, hc, h⟩
    · exact top (by omega) h
    · obtain ⟨⟨c, h1, h2⟩, h3⟩ := top (by omega) h
      refine ⟨⟨c, ?_, h2⟩, ?_⟩
      · rw [show mid ++ '.' :: t = (mid ++ ['.']) ++ t by simp, List.getLast?_append, h1]; rfl
      · simp only [List.mem_append, List.mem_cons, not_or]
        refine ⟨fun hm => ?_, by decide, h3⟩
        rcases hc _ hm with h | h | h
        exacts [hl h, hd h, absurd h (by decide)]
  obtain ⟨⟨c, h1, h2⟩, h3⟩ := key
  refine ⟨⟨c, ?_, h2⟩, ?_⟩
  · rw [show label ++ '.' :: rest = (label ++ ['.']) ++ rest by simp, List.getLast?_append, h1]; rfl
  · simp only [List.mem_append, List.mem_cons, not_or]
    exact ⟨c1, by decide, h3⟩

theorem v4_last {s : Str} {b : Bytes} (h : V4Text s b) : ∃ c, s.getLast? = some c ∧ DecDigit c := by
  obtain ⟨x, y, z, w, p, q, r, t, rfl, rfl, o1, o2, o3, o4⟩ := h
  refine ⟨w.getLast o4.1, ?_, o4.2.1 _ (List.getLast_mem _)⟩
  rw [show x ++ '.' :: (y ++ '.' :: (z ++ '.' :: w)) = (x ++ '.' :: (y ++ '.' :: (z ++ ['.']))) ++ w by simp, List.getLast?_append,
    List.getLast?_eq_getLast_of_ne_nil o4.1]
  rfl

theorem digit_not_letter {c : Char} (h : DecDigit c) : ¬ IsLetter c := by
  unfold DecDigit at h
  unfold IsLetter
  simp only [char_le] at *
  have e1 : 'a'.toNat = 97 := rfl
  have e2 : 'A'.toNat = 65 := rfl
  have e3 : '9'.toNat = 57 := rfl
  omega

/-- No text is both an IP address and a host name, even with a line break after it. -/
theorem ip_not_host {s : Str} {b : Bytes} (h : IpText s b) : ¬ GoodHost s ∧ ¬ ∃ t, s = t ++ ['\n'] ∧ GoodHost t := by
  rcases h with h | ⟨t, gs, h, -, hs⟩
  · obtain ⟨c, h1, h2⟩ := v4_last h
    constructor
    · intro hg
      obtain ⟨⟨d, h3, h4⟩, -⟩ := hostChars hg
      rw [h1] at h3
      have := Option.some.inj h3; subst this
      exact digit_not_letter h2 h4
    · rintro ⟨t, rfl, -⟩
      rw [List.getLast?_concat] at h1
      have := Option.some.inj h1; subst this
      exact absurd h2 (by unfold DecDigit; decide)
  · have hc : ':' ∈ s := by
      have := v6_colons h
      rcases hs with rfl | ⟨_, -, -, -, rfl⟩
      · exact this
      · simp [this]
    constructor
    · intro hg; exact (hostChars hg).2 hc
    · rintro ⟨u, rfl, hg⟩
      rcases List.mem_append.1 hc with h | h
      · exact (hostChars hg).2 h
      · simp at h

example : IpText "93.184.216.34".toList [93, 184, 216, 34] := (C129_text _ _).1 (by decide +kernel)
example : IpText "1:2:3:4:5:6:7.8.9.10".toList [0, 1, 0, 2, 0, 3, 0, 4, 0, 5, 0, 6, 7, 8, 9, 10] := (C129_text _ _).1 (by decide +kernel)
example : IpText "FE80::1%eth0".toList [254, 128, 0, 0, 0, 0, 0, 0, 0, 0, 0, 0, 0, 0, 0, 1] := (C129_text _ _).1 (by decide +kernel)
example : ∀ b, ¬ IpText "1.2.3.04".toList b := fun b h => by rw [← C129_text] at h; exact absurd h (by rw [show parseIp "1.2.3.04".toList = none by decide +kernel]; simp)
example : ∀ b, ¬ IpText "1::2::3".toList b := fun b h => by rw [← C129_text] at h; exact absurd h (by rw [show parseIp "1::2::3".toList = none by decide +kernel]; simp)
example : printIp [0, 1, 0, 0, 0, 0, 0, 2, 0, 0, 0, 0, 0, 0, 0, 3] = "1:0:0:2::3".toList := by decide +kernel

/-- **C129** (assumptions met). The `ipaddress` module has all that the theorems about bots, transactions and answers ask of it. -/
theorem C129_lawful : LawfulIp pyIp where
  size s b h := ip_size ((C129_text s b).1 h)
  roundtrip b h := C129_roundtrip b h
  notHost b h := by
    have ht := (C129_text _ _).1 (C129_roundtrip b h)
    refine ⟨?_, ?_⟩
    · cases hm : hostnameRe.matchDollar (printIp b) with
      | false => exact hm
      | true =>
        rcases (hostText_iff _).1 hm with h | h
        · exact absurd h (ip_not_host ht).1
        · exact absurd h (ip_not_host ht).2
    · show printIp b ≠ []
      intro e
      rw [e] at ht
      rcases ht with h | ⟨t, gs, h, -, hs⟩
      · obtain ⟨c, h1, -⟩ := v4_last h; simp at h1
      · have := v6_colons h
        rcases hs with rfl | ⟨_, -, -, -, e⟩
        · simp at this
        · simp at e

/-- **C129** (network addresses). A text is accepted as the network address of a bot exactly if it is a host name of at most 63 characters or an IP
address, and then it is that one. Missing: a line break after a host name is accepted too (C128). -/
theorem C129_network_address_partial (s : Str) (a : NetAddr) :
    NetAddr.new pyIp (.str s) = .ok a ↔
      ((GoodHost s ∨ ∃ t, s = t ++ ['\n'] ∧ GoodHost t) ∧ s.length ≤ 63 ∧ a = ⟨.hostname, asciiBytes s⟩) ∨ ∃ b, IpText s b ∧ IpIs b a := by
  rw [C128_texts_partial]
  have e : ∀ b, pyIp.parse s = some b ↔ IpText s b := C129_text s
  constructor
  · rintro (h | ⟨-, -, b, hb, h⟩)
    · exact .inl h
    · exact .inr ⟨b, (e b).1 hb, h⟩
  · rintro (h | ⟨b, hb, h⟩)
    · exact .inl h
    · exact .inr ⟨(ip_not_host hb).1, (ip_not_host hb).2, b, (e b).2 hb, h⟩

example : NetAddr.new pyIp (.str "::ffff:1.2.3.4".toList) = .ok ⟨.ipv4, [1, 2, 3, 4]⟩ := by decide +kernel
example : NetAddr.new pyIp (.str "1.2.3.456".toList) = .error .valueError := by decide +kernel

/-- **C129** (refusal). Every other text is refused with a `ValueError`. -/
theorem C129_refused (s : Str) (h1 : ¬ GoodHost s) (h2 : ¬ ∃ t, s = t ++ ['\n'] ∧ GoodHost t) (h3 : ¬ ∃ b, IpText s b) :
    NetAddr.new pyIp (.str s) = .error .valueError := by
  refine C128_refused _ _ (.inl ⟨h1, h2, ?_⟩)
  cases h : pyIp.parse s with
  | none => rfl
  | some b => exact absurd ⟨b, (C129_text s b).1 h⟩ h3

/-- **C129** (JSON). Whatever a network address is made of — a text, a number or nothing — its text form stands for the same address, and so does
its encoding. -/
theorem C129_same_address (v : NetArg) (hv : ∀ a, v ≠ .net a) (a : NetAddr) (h : NetAddr.new pyIp v = .ok a) :
    NetAddr.fromJson pyIp (.str (a.json pyIp)) = .ok a ∧
    ∃ x, a.riv = ⟨x, none⟩ ∧ ∀ rest, netDecode (x ++ rest) = some (a.kind.toNat, a.addr, rest) := by
  refine ⟨C66_net_address_json pyIp C129_lawful v hv a h, ?_⟩
  obtain ⟨x, h1, -, h3⟩ := C66_net_address_wire pyIp C129_lawful v hv a h
  exact ⟨x, h1, h3⟩

example : NetAddr.json pyIp ⟨.ipv6, [32, 1, 13, 184, 0, 0, 0, 0, 0, 0, 0, 0, 0, 0, 0, 1]⟩ = "2001:db8::1".toList := by decide +kernel

/-- **C129** (scope ids). Two texts of an IPv6 address that differ only in the scope id are the same network address: the scope id is lost. -/
theorem C129_scope_lost (t scope : Str) (gs : List Nat) (h : V6Text t gs) (h1 : scope ≠ []) (h2 : '%' ∉ scope) (h3 : '/' ∉ scope) :
    ∃ a, NetAddr.new pyIp (.str (t ++ '%' :: scope)) = .ok a ∧ NetAddr.new pyIp (.str t) = .ok a := by
  have i1 : IpText (t ++ '%' :: scope) (groupBytes gs) := .inr ⟨t, gs, h, rfl, .inr ⟨scope, h1, h2, h3, rfl⟩⟩
  have i2 : IpText t (groupBytes gs) := .inr ⟨t, gs, h, rfl, .inl rfl⟩
  have : ∃ a, IpIs (groupBytes gs) a := by
    by_cases hm : ∃ x, groupBytes gs = mappedV4 x
    · obtain ⟨x, hx⟩ := hm; exact ⟨⟨.ipv4, x⟩, by rw [hx]; exact .mapped x⟩
    · exact ⟨_, .v6 _ (by
        have := (v6_chars h).2.2.1
        rcases ip_size i2 with h4 | h4
        · intro _
          exfalso
          match gs, this with
          | [_, _, _, _, _, _, _, _], _ => simp [groupBytes] at h4
        · omega) (fun x hx => hm ⟨x, hx⟩)⟩
  obtain ⟨a, ha⟩ := this
  exact ⟨a, (C129_network_address_partial _ _).2 (.inr ⟨_, i1, ha⟩), (C129_network_address_partial _ _).2 (.inr ⟨_, i2, ha⟩)⟩

example : ∃ a, NetAddr.new pyIp (.str "fe80::1%eth0".toList) = .ok a ∧ NetAddr.new pyIp (.str "fe80::1".toList) = .ok a :=
  ⟨⟨.ipv6, [254, 128, 0, 0, 0, 0, 0, 0, 0, 0, 0, 0, 0, 0, 0, 1]⟩, by decide +kernel, by decide +kernel⟩

end TF.Props
