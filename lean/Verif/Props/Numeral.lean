import Verif.Spec.Numeral
import Verif.Props.ThreeBot
import Verif.Lemmas.Bytes
/-! # Which texts count as hexadecimal numbers, and addresses given as numbers -/
namespace TF.Props
open TF.Spec

/-! ## C66: addresses given as numbers -/

theorem bigEndian_eq (b : Bytes) : bigEndian b = beValue b := by
  induction b with
  | nil => rfl
  | cons x b ih =>
    rw [show x :: b = [x] ++ b from rfl, beValue_append]
    simp [bigEndian, ih, beValue]

theorem beValue_lt (b : Bytes) : beValue b < 256 ^ b.length := by
  have := leValue_lt b.reverse
  rw [← beValue_reverse, List.reverse_reverse, List.length_reverse] at this
  exact this

theorem beValue_inj {a b : Bytes} (hl : a.length = b.length) (h : beValue a = beValue b) : a = b := by
  have ha := toBytesLE_leValue a.reverse
  have hb := toBytesLE_leValue b.reverse
  rw [← beValue_reverse, List.reverse_reverse, List.length_reverse] at ha hb
  rw [hl, h] at ha
  have := congrArg List.reverse (ha.symm.trans hb)
  rwa [List.reverse_reverse, List.reverse_reverse] at this

theorem beValue_split {b : Bytes} (hl : b.length = 16) :
    beValue (b.take 12) * 4294967296 + beValue (b.drop 12) = beValue b ∧ beValue (b.drop 12) < 4294967296 := by
  have hd : (b.drop 12).length = 4 := by rw [List.length_drop, hl]
  constructor
  · conv => rhs; rw [← List.take_append_drop 12 b, beValue_append]
    rw [hd]
  · have := beValue_lt (b.drop 12)
    rw [hd] at this
    exact this

theorem packed_v4 {n : Nat} (h : n < 4294967296) : packedOfInt (n : Int) = some (toBytesBE 4 n) := by
  unfold packedOfInt
  rw [if_neg (by omega), if_pos (by omega), Int.toNat_natCast]

theorem packed_v6 {n : Nat} (h : ¬ n < 4294967296) (hn : n < 2 ^ 128) : packedOfInt (n : Int) = some (toBytesBE 16 n) := by
  unfold packedOfInt
  rw [if_neg (by omega), if_neg (by omega), if_pos (by omega), Int.toNat_natCast]

theorem packed_out {i : Int} (h : i < 0 ∨ 2 ^ 128 ≤ i) : packedOfInt i = none := by
  unfold packedOfInt
  rcases h with h | h
  · rw [if_pos h]
  · rw [if_neg (by omega), if_neg (by omega), if_neg (by omega)]

theorem new_int (L : IpLib) {i : Int} {b : Bytes} (h : packedOfInt i = some b) : NetAddr.new L (.int i) = .ok (netOfPacked b) := by
  simp only [NetAddr.new, h]

theorem new_int_none (L : IpLib) {i : Int} (h : packedOfInt i = none) : NetAddr.new L (.int i) = .error .valueError := by
  simp only [NetAddr.new, h]

theorem rfl_mapped : 0xffff = beValue [0, 0, 0, 0, 0, 0, 0, 0, 0, 0, 255, 255] := by decide

/-- **C66** (numbers). A number is accepted exactly when it is one of an IP address, that is, not negative and below 2^128. Numbers
below 2^32 are IPv4 addresses, numbers of IPv4-mapped addresses become the IPv4 address, and all others are IPv6 addresses; the stored
bytes are the number in network byte order. -/
theorem C66_number (L : IpLib) (i : Int) :
    (i < 0 ∨ 2 ^ 128 ≤ i → NetAddr.new L (.int i) = .error .valueError) ∧
    (0 ≤ i → i < 2 ^ 128 → ∃ a, NetAddr.new L (.int i) = .ok a ∧
      (i < 2 ^ 32 → a.kind = .ipv4 ∧ a.addr.length = 4 ∧ (bigEndian a.addr : Int) = i) ∧
      (MappedV4 i → a.kind = .ipv4 ∧ a.addr.length = 4 ∧ (bigEndian a.addr : Int) = i % 2 ^ 32) ∧
      (2 ^ 32 ≤ i → ¬ MappedV4 i → a.kind = .ipv6 ∧ a.addr.length = 16 ∧ (bigEndian a.addr : Int) = i)) := by
  constructor
  · intro h
    exact new_int_none L (packed_out h)
  · intro h0 h1
    obtain ⟨n, rfl⟩ := Int.eq_ofNat_of_zero_le h0
    have hn : n < 2 ^ 128 := by omega
    unfold MappedV4
    by_cases h32 : n < 4294967296
    · refine ⟨⟨.ipv4, toBytesBE 4 n⟩, ?_, fun _ => ⟨rfl, by simp, ?_⟩, fun h => ?_, fun h => ?_⟩
      · rw [new_int L (packed_v4 h32), netOfPacked, if_pos (by simp)]
      · rw [bigEndian_eq, beValue_toBytesBE, Nat.mod_eq_of_lt (by simpa using h32)]
      · omega
      · omega
    · have hp := packed_v6 h32 hn
      obtain ⟨b, hb⟩ : ∃ b, b = toBytesBE 16 n := ⟨_, rfl⟩
      have hl : b.length = 16 := by rw [hb]; simp
      have hv : beValue b = n := by rw [hb, beValue_toBytesBE, Nat.mod_eq_of_lt (by simpa using hn)]
      obtain ⟨hs, hd⟩ := beValue_split hl
      rw [hv] at hs
      rw [← hb] at hp
      by_cases hm : b.take 12 = [0, 0, 0, 0, 0, 0, 0, 0, 0, 0, 255, 255]
      · have h16 : beValue (b.take 12) = 0xffff := by rw [hm]; exact rfl_mapped.symm
        rw [h16] at hs
        refine ⟨⟨.ipv4, b.drop 12⟩, ?_, fun h => ?_, fun _ => ⟨rfl, by simp [hl], ?_⟩, fun _ h => ?_⟩
        · rw [new_int L hp, netOfPacked, if_neg (by rw [hl]; decide), if_pos hm]
        · omega
        · rw [bigEndian_eq]; dsimp only; omega
        · omega
      · have h16 : beValue (b.take 12) ≠ 0xffff := by
          intro h
          exact hm (beValue_inj (by simp [hl]) (h.trans rfl_mapped))
        refine ⟨⟨.ipv6, b⟩, ?_, fun h => ?_, fun h => ?_, fun _ _ => ⟨rfl, hl, ?_⟩⟩
        · rw [new_int L hp, netOfPacked, if_neg (by rw [hl]; decide), if_neg hm]
        · omega
        · omega
        · rw [bigEndian_eq, hv]

example : NetAddr.new toyIp (.int 0) = .ok ⟨.ipv4, [0, 0, 0, 0]⟩ ∧
    NetAddr.new toyIp (.int 0xffff7f000001) = .ok ⟨.ipv4, [127, 0, 0, 1]⟩ ∧
    NetAddr.new toyIp (.int (2 ^ 32)) = .ok ⟨.ipv6, [0, 0, 0, 0, 0, 0, 0, 0, 0, 0, 0, 1, 0, 0, 0, 0]⟩ ∧
    NetAddr.new toyIp (.int (2 ^ 128)) = .error .valueError ∧ NetAddr.new toyIp (.int (-1)) = .error .valueError := by
  decide +kernel

/-! ## C68: the texts the validity check takes for numbers -/

theorem hexDigit_iff (c : Char) : HexDigit c ↔ (hexVal c).isSome = true := by
  have e : ∀ a b : Char, a ≤ b ↔ a.toNat ≤ b.toNat := fun a b => Iff.rfl
  unfold HexDigit hexVal
  simp only [e]
  have h0 : '0'.toNat = 48 := rfl
  have h9 : '9'.toNat = 57 := rfl
  have ha : 'a'.toNat = 97 := rfl
  have hf : 'f'.toNat = 102 := rfl
  have hA : 'A'.toNat = 65 := rfl
  have hF : 'F'.toNat = 70 := rfl
  rw [h0, h9, ha, hf, hA, hF]
  split
  · simp_all
  · split
    · simp_all
    · split
      · simp_all
      · simp_all

/-- Digits in groups. -/
def Groups (gs : List Str) : Prop := ∀ g ∈ gs, g ≠ [] ∧ ∀ c ∈ g, HexDigit c

theorem hexDigits_iff (s : Str) :
    (pyIntHexOk.hexDigits false s = true ↔ ∃ gs, gs ≠ [] ∧ Groups gs ∧ s = grouped gs) ∧
    (pyIntHexOk.hexDigits true s = true ↔ s = [] ∨ (∃ gs, gs ≠ [] ∧ Groups gs ∧ s = grouped gs) ∨
      ∃ gs, gs ≠ [] ∧ Groups gs ∧ s = '_' :: grouped gs) := by
  induction s with
  | nil =>
    refine ⟨⟨fun h => (by cases h), ?_⟩, fun _ => .inl rfl, fun _ => rfl⟩
    rintro ⟨gs, hne, hg, he⟩
    cases gs with
    | nil => exact absurd rfl hne
    | cons g l =>
      have := (hg g (by simp)).1
      cases l <;> simp [grouped, this] at he
  | cons c s ih =>
    have first : ∀ gs, gs ≠ [] → Groups gs → c :: s = grouped gs → HexDigit c := by
      intro gs hne hg he
      cases gs with
      | nil => exact absurd rfl hne
      | cons g l =>
        obtain ⟨hg1, hg2⟩ := hg g (by simp)
        cases g with
        | nil => exact absurd rfl hg1
        | cons d g =>
          have : c = d := by
            cases l with
            | nil => simp only [grouped, List.cons.injEq] at he; exact he.1
            | cons g' l => simp only [grouped, List.cons_append, List.cons.injEq] at he; exact he.1
          rw [this]; exact hg2 d (by simp)
    by_cases hc : (hexVal c).isSome = true
    · have hd := (hexDigit_iff c).2 hc
      have hu : c ≠ '_' := (hexVal_facts hc).2.2.2.2.2.2
      have key : pyIntHexOk.hexDigits true s = true ↔ ∃ gs, gs ≠ [] ∧ Groups gs ∧ c :: s = grouped gs := by
        rw [ih.2]
        constructor
        · rintro (rfl | ⟨gs, hne, hg, rfl⟩ | ⟨gs, hne, hg, rfl⟩)
          · exact ⟨[[c]], by simp, by intro g h; simp at h; subst h; exact ⟨by simp, by simpa using hd⟩, rfl⟩
          · cases gs with
            | nil => exact absurd rfl hne
            | cons g l =>
              refine ⟨(c :: g) :: l, by simp, ?_, ?_⟩
              · intro g' h
                rcases List.mem_cons.1 h with rfl | h
                · refine ⟨by simp, fun x hx => ?_⟩
                  rcases List.mem_cons.1 hx with rfl | hx
                  · exact hd
                  · exact (hg g (by simp)).2 x hx
                · exact hg g' (by simp [h])
              · cases l <;> simp [grouped]
          · refine ⟨[c] :: gs, by simp, ?_, ?_⟩
            · intro g' h
              rcases List.mem_cons.1 h with rfl | h
              · exact ⟨by simp, by simpa using hd⟩
              · exact hg g' h
            · cases gs with
              | nil => exact absurd rfl hne
              | cons g l => simp [grouped]
        · rintro ⟨gs, hne, hg, he⟩
          cases gs with
          | nil => exact absurd rfl hne
          | cons g l =>
            obtain ⟨hg1, hg2⟩ := hg g (by simp)
            cases g with
            | nil => exact absurd rfl hg1
            | cons d g =>
              cases l with
              | nil =>
                simp only [grouped, List.cons.injEq] at he
                cases g with
                | nil => exact .inl he.2
                | cons d' g =>
                  exact .inr (.inl ⟨[d' :: g], by simp, by
                    intro x hx; simp at hx; subst hx; exact ⟨by simp, fun y hy => hg2 y (List.mem_cons_of_mem _ hy)⟩, he.2⟩)
              | cons g' l =>
                simp only [grouped, List.cons_append, List.cons.injEq] at he
                cases g with
                | nil =>
                  exact .inr (.inr ⟨g' :: l, by simp, fun x hx => hg x (List.mem_cons_of_mem _ hx), by simpa using he.2⟩)
                | cons d' g =>
                  refine .inr (.inl ⟨(d' :: g) :: g' :: l, by simp, ?_, by simpa [grouped] using he.2⟩)
                  intro x hx
                  rcases List.mem_cons.1 hx with rfl | hx
                  · exact ⟨by simp, fun y hy => hg2 y (List.mem_cons_of_mem _ hy)⟩
                  · exact hg x (List.mem_cons_of_mem _ hx)
      have e : ∀ p, pyIntHexOk.hexDigits p (c :: s) = pyIntHexOk.hexDigits true s := by
        intro p; rw [pyIntHexOk.hexDigits, if_pos hc]
      refine ⟨by rw [e]; exact key, ?_⟩
      rw [e, key]
      constructor
      · exact fun h => .inr (.inl h)
      · rintro (h | h | ⟨gs, -, -, h⟩)
        · cases h
        · exact h
        · simp only [List.cons.injEq] at h; exact absurd h.1 hu
    · have hn : ¬ ∃ gs, gs ≠ [] ∧ Groups gs ∧ c :: s = grouped gs := by
        rintro ⟨gs, hne, hg, he⟩
        exact hc ((hexDigit_iff c).1 (first gs hne hg he))
      refine ⟨⟨fun h => ?_, fun h => absurd h hn⟩, ?_⟩
      · rw [pyIntHexOk.hexDigits, if_neg hc] at h
        simp at h
      · rw [pyIntHexOk.hexDigits, if_neg hc]
        by_cases hu : c = '_'
        · subst hu
          simp only [beq_self_eq_true, Bool.and_true, if_true]
          rw [ih.1]
          constructor
          · rintro ⟨gs, h1, h2, rfl⟩; exact .inr (.inr ⟨gs, h1, h2, rfl⟩)
          · rintro (h | h | ⟨gs, h1, h2, h⟩)
            · cases h
            · exact absurd h hn
            · simp only [List.cons.injEq, true_and] at h; exact ⟨gs, h1, h2, h⟩
        · rw [if_neg (by simp [hu])]
          constructor
          · intro h; cases h
          · rintro (h | h | ⟨gs, -, -, h⟩)
            · cases h
            · exact absurd h hn
            · simp only [List.cons.injEq] at h; exact absurd h.1 hu

theorem ends_split (p : Char → Bool) (s : Str) : ∃ before after, s = before ++ rstrip p (lstrip p s) ++ after ∧ (∀ c ∈ before, p c = true) ∧
    (∀ c ∈ after, p c = true) := by
  refine ⟨s.takeWhile p, ((s.dropWhile p).reverse.takeWhile p).reverse, ?_, ?_, ?_⟩
  · have h := List.takeWhile_append_dropWhile (p := p) (l := (s.dropWhile p).reverse)
    have h' := congrArg List.reverse h
    rw [List.reverse_append, List.reverse_reverse] at h'
    unfold rstrip lstrip
    rw [List.append_assoc, h', List.takeWhile_append_dropWhile]
  · intro c hc; exact List.all_eq_true.1 List.all_takeWhile c hc
  · intro c hc; exact List.all_eq_true.1 List.all_takeWhile c (List.mem_reverse.1 hc)

theorem strip_split (s : Str) : ∃ before after, s = before ++ strip s ++ after ∧ (∀ c ∈ before, isPySpace c = true) ∧
    (∀ c ∈ after, isPySpace c = true) := ends_split isPySpace s

theorem dropWhile_append_all {p : Char → Bool} {a r : Str} (ha : ∀ c ∈ a, p c = true) : (a ++ r).dropWhile p = r.dropWhile p := by
  induction a with
  | nil => rfl
  | cons x a ih =>
    rw [List.cons_append, List.dropWhile_cons_of_pos (ha x (by simp))]
    exact ih fun c hc => ha c (by simp [hc])

theorem ends_around (p : Char → Bool) {before s after : Str} (hb : ∀ c ∈ before, p c = true) (ha : ∀ c ∈ after, p c = true)
    (hne : s ≠ []) (h1 : ∀ c, s.head? = some c → p c = false) (h2 : ∀ c, s.getLast? = some c → p c = false) :
    rstrip p (lstrip p (before ++ s ++ after)) = s := by
  unfold rstrip lstrip
  rw [List.append_assoc, dropWhile_append_all hb, dropWhile_eq_self (s := s ++ after) (by
    intro c hc
    rw [List.head?_append, List.head?_eq_some_head hne, Option.some_or, ← List.head?_eq_some_head hne] at hc
    exact h1 c hc), List.reverse_append, dropWhile_append_all (fun c hc => ha c (List.mem_reverse.1 hc)),
    dropWhile_eq_self (by intro c hc; exact h2 c (by simpa using hc)), List.reverse_reverse]

theorem strip_around {before s after : Str} (hb : ∀ c ∈ before, isPySpace c = true) (ha : ∀ c ∈ after, isPySpace c = true)
    (hne : s ≠ []) (h1 : ∀ c, s.head? = some c → isPySpace c = false) (h2 : ∀ c, s.getLast? = some c → isPySpace c = false) :
    strip (before ++ s ++ after) = s := ends_around isPySpace hb ha hne h1 h2

theorem grouped_head {gs : List Str} (hne : gs ≠ []) (hg : Groups gs) :
    ∃ c r, grouped gs = c :: r ∧ HexDigit c := by
  cases gs with
  | nil => exact absurd rfl hne
  | cons g l =>
    obtain ⟨h1, h2⟩ := hg g (by simp)
    cases g with
    | nil => exact absurd rfl h1
    | cons c g =>
      refine ⟨c, ?_, ?_, h2 c (by simp)⟩
      · exact (grouped ((c :: g) :: l)).tail
      · cases l <;> simp [grouped]

theorem grouped_last {gs : List Str} (hne : gs ≠ []) (hg : Groups gs) :
    ∀ c, (grouped gs).getLast? = some c → HexDigit c := by
  induction gs with
  | nil => exact absurd rfl hne
  | cons g l ih =>
    obtain ⟨h1, h2⟩ := hg g (by simp)
    cases l with
    | nil => intro c hc; exact h2 c (List.mem_of_getLast? hc)
    | cons g' l =>
      intro c hc
      rw [grouped, List.getLast?_append, List.getLast?_cons] at hc
      · cases hh : (grouped (g' :: l)).getLast? with
        | none =>
          obtain ⟨d, r, he, -⟩ := grouped_head (gs := g' :: l) (by simp) (fun x hx => hg x (List.mem_cons_of_mem _ hx))
          rw [he] at hh; simp at hh
        | some d =>
          rw [hh] at hc
          simp only [Option.getD_some, Option.some_or, Option.some.injEq] at hc
          subst hc
          exact ih (by simp) (fun x hx => hg x (List.mem_cons_of_mem _ hx)) d hh
      · simp

theorem dropHexPrefix_iff (t : Str) : (∃ gs, gs ≠ [] ∧ Groups gs ∧ dropHexPrefix t = grouped gs) ↔
    ∃ pre gs, gs ≠ [] ∧ Groups gs ∧ t = pre ++ grouped gs ∧
      (pre = [] ∨ pre = ['0', 'x'] ∨ pre = ['0', 'X'] ∨ pre = ['0', 'x', '_'] ∨ pre = ['0', 'X', '_']) := by
  constructor
  · rintro ⟨gs, hne, hg, h⟩
    unfold dropHexPrefix at h
    split at h
    · exact ⟨['0', 'x', '_'], gs, hne, hg, by rw [h]; rfl, by simp⟩
    · exact ⟨['0', 'X', '_'], gs, hne, hg, by rw [h]; rfl, by simp⟩
    · exact ⟨['0', 'x'], gs, hne, hg, by rw [h]; rfl, by simp⟩
    · exact ⟨['0', 'X'], gs, hne, hg, by rw [h]; rfl, by simp⟩
    · exact ⟨[], gs, hne, hg, by rw [h]; rfl, by simp⟩
  · rintro ⟨pre, gs, hne, hg, rfl, hp⟩
    refine ⟨gs, hne, hg, ?_⟩
    obtain ⟨c, r, he, hc⟩ := grouped_head hne hg
    have hf := hexVal_facts ((hexDigit_iff c).1 hc)
    rcases hp with rfl | rfl | rfl | rfl | rfl
    · rw [List.nil_append]
      cases gs with
      | nil => exact absurd rfl hne
      | cons g l =>
        -- the second character is a digit, an underscore or missing
        have second : ∀ d rest, grouped (g :: l) = '0' :: d :: rest → d ≠ 'x' ∧ d ≠ 'X' := by
          intro d rest hd
          obtain ⟨hg1, hg2⟩ := hg g (by simp)
          match g, hg1, hg2 with
          | [a], _, _ =>
            cases l with
            | nil => simp [grouped] at hd
            | cons g' l => simp [grouped] at hd; rw [← hd.2.1]; decide
          | a :: b :: g, _, hg2 =>
            have hb := hexVal_facts ((hexDigit_iff b).1 (hg2 b (by simp)))
            have : b = d := by cases l <;> simp [grouped] at hd <;> exact hd.2.1
            subst this
            exact ⟨hb.2.2.2.2.1, hb.2.2.2.2.2.1⟩
        unfold dropHexPrefix
        split
        · rename_i r e; exact absurd rfl (second _ _ e).1
        · rename_i r e; exact absurd rfl (second _ _ e).2
        · rename_i r _ e; exact absurd rfl (second _ _ e).1
        · rename_i r _ e; exact absurd rfl (second _ _ e).2
        · rfl
    · rw [he]; show dropHexPrefix ('0' :: 'x' :: c :: r) = _
      unfold dropHexPrefix
      split
      · rename_i e; simp only [List.cons.injEq] at e; exact absurd e.2.2.1 hf.2.2.2.2.2.2
      · rename_i e; simp at e
      · rename_i e; simp only [List.cons.injEq, true_and] at e; exact e.symm
      · rename_i e; simp at e
      · rename_i h _; exact absurd rfl (h _)
    · rw [he]; show dropHexPrefix ('0' :: 'X' :: c :: r) = _
      unfold dropHexPrefix
      split
      · rename_i e; simp at e
      · rename_i e; simp only [List.cons.injEq] at e; exact absurd e.2.2.1 hf.2.2.2.2.2.2
      · rename_i e; simp at e
      · rename_i e; simp only [List.cons.injEq, true_and] at e; exact e.symm
      · rename_i h; exact absurd rfl (h _)
    · rfl
    · rfl

/-- **C68** (which texts). The validity check accepts a text exactly when, after one optional `0x` or `0X`, it is 40 characters long
and reads as a hexadecimal number of Python, with the blanks, the sign, the second prefix and the underscores Python allows in one. -/
theorem C68_accepted_texts (s : Str) :
    erc20ValidStr s = true ↔ (withoutPrefix s).length = 40 ∧ HexNumeral (withoutPrefix s) := by
  have hn : ∀ t, pyIntHexOk t = true ↔ HexNumeral t := by
    intro t
    unfold pyIntHexOk
    rw [(hexDigits_iff _).1]
    have e : (∃ gs, gs ≠ [] ∧ Groups gs ∧ dropHexPrefix (dropSign (intText t)) = grouped gs) ↔
        ∃ sign pre gs, gs ≠ [] ∧ Groups gs ∧ intText t = sign ++ (pre ++ grouped gs) ∧
          (pre = [] ∨ pre = ['0', 'x'] ∨ pre = ['0', 'X'] ∨ pre = ['0', 'x', '_'] ∨ pre = ['0', 'X', '_']) ∧
          (sign = [] ∨ sign = ['+'] ∨ sign = ['-']) := by
      rw [dropHexPrefix_iff]
      constructor
      · rintro ⟨pre, gs, h1, h2, h3, h4⟩
        unfold dropSign at h3
        split at h3
        · rename_i r e; exact ⟨['+'], pre, gs, h1, h2, by rw [e, ← h3]; rfl, h4, by simp⟩
        · rename_i r e; exact ⟨['-'], pre, gs, h1, h2, by rw [e, ← h3]; rfl, h4, by simp⟩
        · exact ⟨[], pre, gs, h1, h2, by rw [h3]; rfl, h4, by simp⟩
      · rintro ⟨sign, pre, gs, h1, h2, h3, h4, h5⟩
        refine ⟨pre, gs, h1, h2, ?_, h4⟩
        rw [h3]
        rcases h5 with rfl | rfl | rfl
        · obtain ⟨c, r, he, hc⟩ := grouped_head h1 h2
          have hf := hexVal_facts ((hexDigit_iff c).1 hc)
          obtain ⟨d, r', hd, hd1, hd2⟩ : ∃ d r', pre ++ grouped gs = d :: r' ∧ d ≠ '+' ∧ d ≠ '-' := by
            rcases h4 with rfl | rfl | rfl | rfl | rfl
            · exact ⟨c, r, he, hf.2.2.1, hf.2.2.2.1⟩
            all_goals exact ⟨'0', _, rfl, by decide, by decide⟩
          rw [List.nil_append, hd]
          unfold dropSign
          split
          · rename_i e; simp only [List.cons.injEq] at e; exact absurd e.1 hd1
          · rename_i e; simp only [List.cons.injEq] at e; exact absurd e.1 hd2
          · rfl
        · rfl
        · rfl
    have e' : (∃ gs, gs ≠ [] ∧ Groups gs ∧ dropHexPrefix (dropSign (intText t)) = grouped gs) ↔ HexNumeral t := by
      rw [e]
      constructor
      · rintro ⟨sign, pre, gs, h1, h2, h3, h4, h5⟩
        obtain ⟨before, after, hs, hb, ha⟩ := ends_split isIntSpace (t.map asciiDigit)
        refine ⟨before, sign, pre, gs, after, ?_, hb, ha, h5, h4, h1, h2⟩
        rw [← h3]; exact hs
      · rintro ⟨before, sign, pre, gs, after, hs, hb, ha, h5, h4, h1, h2⟩
        refine ⟨sign, pre, gs, h1, h2, ?_, h4, h5⟩
        obtain ⟨c, r, he, hc⟩ := grouped_head h1 h2
        have hf := hexVal_facts ((hexDigit_iff c).1 hc)
        unfold intText
        rw [hs]
        apply ends_around isIntSpace hb ha
        · rw [he]; simp
        · intro d hd
          rcases h5 with rfl | rfl | rfl
          · rcases h4 with rfl | rfl | rfl | rfl | rfl
            · rw [List.nil_append, List.nil_append, he] at hd
              simp only [List.head?_cons, Option.some.injEq] at hd
              subst hd; exact intSpace_of hf.2.1
            all_goals
              simp only [List.nil_append, List.cons_append, List.head?_cons, Option.some.injEq] at hd
              subst hd; decide
          all_goals
            simp only [List.cons_append, List.head?_cons, Option.some.injEq] at hd
            subst hd; decide
        · intro d hd
          rw [List.getLast?_append, List.getLast?_append] at hd
          cases hl : (grouped gs).getLast? with
          | none => rw [he] at hl; simp at hl
          | some x =>
            rw [hl] at hd
            simp only [Option.some_or, Option.some.injEq] at hd
            subst hd
            exact intSpace_of (hexVal_facts ((hexDigit_iff _).1 (grouped_last h1 h2 _ hl))).2.1
    exact e'
  unfold erc20ValidStr
  simp only
  rw [show (if s.take 2 = ['0', 'x'] ∨ s.take 2 = ['0', 'X'] then s.drop 2 else s) = withoutPrefix s from rfl]
  split
  · rename_i h; simp [h]
  · rename_i h
    rw [hn]
    have : (withoutPrefix s).length = 40 := Decidable.byContradiction h
    simp [this]

example : erc20ValidStr "0x 0x0000000000000000000000000000000000_1f".toList = true ∧
    erc20ValidStr "0x 0x000000000000000000000000000000000__1f".toList = false ∧
    erc20ValidStr "0x 0x00000000000000000000000000000000000g1".toList = false := by decide +kernel

end TF.Props
