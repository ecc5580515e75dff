import Verif.Spec.HostName
import Verif.Props.ThreeBot
/-! # C128: which network addresses a bot can have -/
namespace TF.Props
open TF TF.Spec

/-- The first part of the pattern of host names. -/
def hostLabelRe : Re := .alt (.cls isAlpha) (.alt (.seq (.cls isAlpha) (.cls isAlpha)) (.alt (.seq (.cls isAlpha) (.cls isNum))
    (.alt (.seq (.cls isNum) (.cls isAlpha)) (.seq (.cls isAlnum) (.seq ((Re.cls fun c => isAlnum c || c == '-' || c == '_').rep 1 61) (.cls isAlnum))))))

theorem hostLabel_iff (s : Str) : Lang hostLabelRe s ↔ HostLabel s := by
  have hp : ∀ c : Char, ((isAlnum c || c == '-' || c == '_') = true) ↔ (IsLetter c ∨ IsDigit c ∨ c = '-' ∨ c = '_') := by
    intro c; simp [isAlnum_iff, or_assoc]
  simp only [hostLabelRe, Lang, lang_rep _ 1 61 (by omega), isAlpha_iff, isNum_iff, isAlnum_iff, hp, HostLabel]
  constructor
  · rintro (h | ⟨_, _, rfl, ⟨a, rfl, ha⟩, b, rfl, hb⟩ | ⟨_, _, rfl, ⟨a, rfl, ha⟩, b, rfl, hb⟩ | ⟨_, _, rfl, ⟨a, rfl, ha⟩, b, rfl, hb⟩ |
      ⟨_, _, rfl, ⟨c, rfl, hc⟩, m, _, rfl, ⟨h1, h2, hm⟩, d, rfl, hd⟩)
    · exact .inl h
    · exact .inr (.inl ⟨a, b, rfl, .inl ⟨ha, hb⟩⟩)
    · exact .inr (.inl ⟨a, b, rfl, .inr (.inl ⟨ha, hb⟩)⟩)
    · exact .inr (.inl ⟨a, b, rfl, .inr (.inr ⟨ha, hb⟩)⟩)
    · refine .inr (.inr ⟨by simp; omega, by simp; omega, ⟨c, rfl, hc⟩, ⟨d, by simp [List.getLast?_cons], hd⟩, ?_⟩)
      intro x hx
      simp only [List.cons_append, List.nil_append, List.mem_cons, List.mem_append, List.not_mem_nil, or_false] at hx
      rcases hx with rfl | hx | rfl
      · rcases hc with h | h
        · exact .inl h
        · exact .inr (.inl h)
      · exact hm x hx
      · rcases hd with h | h
        · exact .inl h
        · exact .inr (.inl h)
  · rintro (h | ⟨a, b, rfl, h⟩ | ⟨h1, h2, ⟨c, hc, hc'⟩, ⟨d, hd, hd'⟩, hall⟩)
    · exact .inl h
    · rcases h with ⟨ha, hb⟩ | ⟨ha, hb⟩ | ⟨ha, hb⟩
      · exact .inr (.inl ⟨[a], [b], rfl, ⟨a, rfl, ha⟩, b, rfl, hb⟩)
      · exact .inr (.inr (.inl ⟨[a], [b], rfl, ⟨a, rfl, ha⟩, b, rfl, hb⟩))
      · exact .inr (.inr (.inr (.inl ⟨[a], [b], rfl, ⟨a, rfl, ha⟩, b, rfl, hb⟩)))
    · refine .inr (.inr (.inr (.inr ?_)))
      cases s with
      | nil => cases hc
      | cons x g =>
        simp only [List.head?_cons, Option.some.injEq] at hc; subst hc
        have hg : g ≠ [] := by rintro rfl; simp at h1
        have hl : g.getLast? = some d := by
          rw [List.getLast?_cons] at hd
          cases hgl : g.getLast? with
          | none => simp at hgl; exact absurd hgl hg
          | some y => rw [hgl] at hd; simpa using hd
        have e : g = g.dropLast ++ [d] := by
          have := List.dropLast_concat_getLast hg
          rw [← this, List.getLast?_append] at hl
          simp at hl
          rw [hl] at this; exact this.symm
        refine ⟨[x], g, rfl, ⟨x, rfl, hc'⟩, g.dropLast, [d], e, ⟨?_, ?_, ?_⟩, d, rfl, hd'⟩
        · simp at h1 ⊢; omega
        · simp at h2 ⊢; omega
        · intro y hy; exact hall y (List.mem_cons_of_mem _ (List.dropLast_subset _ hy))

theorem host_iff (s : Str) : hostnameRe.test s = true ↔ GoodHost s := by
  have hp : ∀ c : Char, ((isAlnum c || c == '-') = true) ↔ (IsLetter c ∨ IsDigit c ∨ c = '-') := by
    intro c; simp [isAlnum_iff, or_assoc]
  rw [test_iff, show hostnameRe = .seq hostLabelRe (.seq (.cls (· == '.')) (.alt ((Re.cls isAlpha).rep 2 6)
    (.seq ((Re.cls fun c => isAlnum c || c == '-').rep 2 30) (.seq (.cls (· == '.')) ((Re.cls isAlpha).rep 2 3))))) from rfl]
  simp only [hostLabel_iff, Lang, lang_rep _ 2 6 (by omega), lang_rep _ 2 30 (by omega), lang_rep _ 2 3 (by omega), isAlpha_iff, hp, GoodHost, TopLevel, beq_iff_eq]
  constructor
  · rintro ⟨u, _, rfl, hu, _, v, rfl, ⟨c, rfl, rfl⟩, hv⟩
    refine ⟨u, v, rfl, hu, ?_⟩
    rcases hv with h | ⟨m, _, rfl, ⟨h1, h2, hm⟩, _, t, rfl, ⟨c, rfl, rfl⟩, ht⟩
    · exact .inl h
    · exact .inr ⟨m, t, rfl, h1, h2, hm, ht⟩
  · rintro ⟨u, v, rfl, hu, hv⟩
    refine ⟨u, _, rfl, hu, ['.'], v, rfl, ⟨'.', rfl, rfl⟩, ?_⟩
    rcases hv with h | ⟨m, t, rfl, h1, h2, hm, ht⟩
    · exact .inl h
    · exact .inr ⟨m, _, rfl, ⟨h1, h2, hm⟩, ['.'], t, rfl, ⟨'.', rfl, rfl⟩, ht⟩

theorem matchDollar_iff (r : Re) (s : Str) : r.matchDollar s = true ↔ r.test s = true ∨ ∃ t, s = t ++ ['\n'] ∧ r.test t = true := by
  unfold Re.matchDollar
  simp only [Bool.or_eq_true, Bool.and_eq_true, beq_iff_eq]
  constructor
  · rintro (h | ⟨h, h'⟩)
    · exact .inl h
    · obtain ⟨t, rfl⟩ := List.getLast?_eq_some_iff.1 h
      exact .inr ⟨t, rfl, by rwa [List.dropLast_concat] at h'⟩
  · rintro (h | ⟨t, rfl, h⟩)
    · exact .inl h
    · exact .inr ⟨by simp, by rwa [List.dropLast_concat]⟩

theorem hostText_iff (s : Str) : hostnameRe.matchDollar s = true ↔ GoodHost s ∨ ∃ t, s = t ++ ['\n'] ∧ GoodHost t := by
  simp only [matchDollar_iff, host_iff]

theorem utf8_asciiBytes : ∀ s : Str, IsAscii s → utf8 s = asciiBytes s
  | [], _ => rfl
  | c :: s, h => by
    have hc := h c (by simp)
    have ih := utf8_asciiBytes s (fun x hx => h x (by simp [hx]))
    have h1 : String.utf8EncodeChar c = [UInt8.ofNat c.toNat] := by
      unfold String.utf8EncodeChar
      simp only
      rw [if_pos (by show c.val.toNat ≤ 0x7f; have : c.val.toNat = c.toNat := rfl; omega)]
      rfl
    rw [show utf8 (c :: s) = String.utf8EncodeChar c ++ utf8 s from rfl, h1, ih]; rfl

theorem mapped_inj {x y : Bytes} (h : mappedV4 x = mappedV4 y) : x = y := by simpa [mappedV4] using h

theorem ipIs_iff (b : Bytes) (a : NetAddr) : netOfPacked b = a ↔ IpIs b a := by
  constructor
  · rintro rfl
    unfold netOfPacked
    split
    · rename_i h; exact .v4 b h
    · split
      · rename_i h h'
        have e : b = mappedV4 (b.drop 12) := by unfold mappedV4; rw [← h', List.take_append_drop]
        have := IpIs.mapped (b.drop 12)
        rw [← e] at this; exact this
      · rename_i h h'
        exact .v6 b h (by rintro x rfl; exact h' (by simp [mappedV4]))
  · intro h
    cases h with
    | v4 _ h => simp [netOfPacked, h]
    | mapped x => simp [netOfPacked, mappedV4]
    | v6 _ h h' =>
      unfold netOfPacked
      rw [if_neg h, if_neg]
      intro e
      exact h' (b.drop 12) (by unfold mappedV4; rw [← e, List.take_append_drop])

/-- **C128** (what holds). A text is accepted as a network address exactly when it is a host name of at most 63 characters — or such a name
and one newline (see the finding) — or, if it is none, an IP address; it is then this host name or this IP address. -/
theorem C128_texts_partial (L : IpLib) (s : Str) (a : NetAddr) :
    NetAddr.new L (.str s) = .ok a ↔
      ((GoodHost s ∨ ∃ t, s = t ++ ['\n'] ∧ GoodHost t) ∧ s.length ≤ 63 ∧ a = ⟨.hostname, asciiBytes s⟩) ∨
      (¬ GoodHost s ∧ (¬ ∃ t, s = t ++ ['\n'] ∧ GoodHost t) ∧ ∃ b, L.parse s = some b ∧ IpIs b a) := by
  have hm := hostText_iff s
  simp only [NetAddr.new]
  by_cases h : hostnameRe.matchDollar s = true
  · rw [if_pos h, utf8_asciiBytes s (hostname_ascii s h)]
    have hh := hm.1 h
    split
    · constructor
      · intro e; cases e
      · rintro (⟨-, e, -⟩ | ⟨h1, h2, -⟩)
        · omega
        · rcases hh with x | x
          · exact absurd x h1
          · exact absurd x h2
    · constructor
      · intro e; cases e; exact .inl ⟨hh, by omega, rfl⟩
      · rintro (⟨-, -, rfl⟩ | ⟨h1, h2, -⟩)
        · rfl
        · rcases hh with x | x
          · exact absurd x h1
          · exact absurd x h2
  · rw [if_neg h]
    have hh : ¬ (GoodHost s ∨ ∃ t, s = t ++ ['\n'] ∧ GoodHost t) := fun x => h (hm.2 x)
    cases e : L.parse s with
    | none =>
      constructor
      · intro e'; cases e'
      · rintro (⟨x, -⟩ | ⟨-, -, b, hb, -⟩)
        · exact absurd x hh
        · cases hb
    | some b =>
      have key := ipIs_iff b a
      constructor
      · intro e'
        exact .inr ⟨fun x => hh (.inl x), fun x => hh (.inr x), b, rfl, key.1 (Except.ok.inj e')⟩
      · rintro (⟨x, -⟩ | ⟨-, -, b', hb, hi⟩)
        · exact absurd x hh
        · cases hb; exact congrArg Except.ok (key.2 hi)

/-- A host name of three parts. -/
theorem goodHost_demo : GoodHost "my_bot-1.grid.tf".toList := by
  refine ⟨"my_bot-1".toList, "grid.tf".toList, by decide, .inr (.inr ⟨by decide, by decide, ⟨'m', by decide, .inl ?_⟩, ⟨'1', by decide, .inr ?_⟩, ?_⟩),
    .inr ⟨"grid".toList, "tf".toList, by decide, by decide, by decide, ?_, by decide, by decide, ?_⟩⟩
  all_goals (try unfold IsLetter); (try unfold IsDigit); decide
example (L : IpLib) :
    NetAddr.new L (.str "my_bot-1.grid.tf".toList) = .ok ⟨.hostname, asciiBytes "my_bot-1.grid.tf".toList⟩ :=
  (C128_texts_partial L _ _).2 (.inl ⟨.inl goodHost_demo, by decide, rfl⟩)
/-- An IPv4 address, also as the IPv6 address it is mapped to. -/
example : NetAddr.new toyIp (.str (':' :: toHex [1, 2, 3, 4])) = .ok ⟨.ipv4, [1, 2, 3, 4]⟩ ∧ NetAddr.new toyIp (.str (':' :: toHex (mappedV4 [1, 2, 3, 4]))) = .ok ⟨.ipv4, [1, 2, 3, 4]⟩ := by
  decide +kernel

/-- **C128** (the finding). A host name followed by a newline is accepted, newline included: the pattern ends in `$`, which matches before a final newline. -/
theorem C128_newline_false : ¬ ∀ (L : IpLib) (s : Str) (a : NetAddr), NetAddr.new L (.str s) = .ok a → a.kind = .hostname → GoodHost s := by
  intro h
  have := h toyIp "grid.tf\n".toList ⟨.hostname, asciiBytes "grid.tf\n".toList⟩ (by decide +kernel) rfl
  rw [← host_iff] at this
  exact absurd this (by decide +kernel)

/-- **C128** (refusal). A text that is neither is refused, as is a host name of more than 63 characters. -/
theorem C128_refused (L : IpLib) (s : Str) (h : (¬ GoodHost s ∧ (¬ ∃ t, s = t ++ ['\n'] ∧ GoodHost t) ∧ L.parse s = none) ∨ (GoodHost s ∧ 63 < s.length)) :
    NetAddr.new L (.str s) = .error .valueError := by
  simp only [NetAddr.new]
  rcases h with ⟨h1, h2, h3⟩ | ⟨h1, h2⟩
  · rw [if_neg (fun h => ((hostText_iff s).1 h).elim h1 h2), h3]
  · rw [if_pos ((hostText_iff s).2 (.inl h1)), if_pos (by omega)]

example : NetAddr.new toyIp (.str "localhost".toList) = .error .valueError := by
  refine C128_refused _ _ (.inl ⟨fun h => ?_, ?_, by decide⟩)
  · rw [← host_iff] at h; exact absurd h (by decide +kernel)
  · rintro ⟨t, e, -⟩
    have : (t ++ ['\n']).getLast? = some '\n' := by simp
    rw [← e] at this
    exact absurd this (by decide)

theorem beValue_inj : ∀ {x y : Bytes}, x.length = y.length → beValue x = beValue y → x = y := by
  have key : ∀ (n : Nat) (x y : Bytes), x.length = n → y.length = n → leValue x = leValue y → x = y := by
    intro n
    induction n with
    | zero => intro x y hx hy _; rw [List.length_eq_zero_iff] at hx hy; rw [hx, hy]
    | succ n ih =>
      intro x y hx hy h
      cases x with
      | nil => simp at hx
      | cons a x =>
        cases y with
        | nil => simp at hy
        | cons b y =>
          simp only [leValue] at h
          have ha := a.toNat_lt
          have hb := b.toNat_lt
          have e : a.toNat = b.toNat := by omega
          have e' : leValue x = leValue y := by omega
          rw [UInt8.toNat_inj.1 e, ih x y (by simpa using hx) (by simpa using hy) e']
  intro x y hl h
  have h1 := beValue_reverse x.reverse
  have h2 := beValue_reverse y.reverse
  rw [List.reverse_reverse] at h1 h2
  have := key x.length x.reverse y.reverse (by simp) (by simp [hl]) (by omega)
  rw [← List.reverse_reverse x, this, List.reverse_reverse]

theorem beValue_toBytes {n : Nat} {i : Int} {b : Bytes} (h0 : 0 ≤ i) (hi : i < (256 ^ n : Nat)) (hb : b.length = n) (hv : (beValue b : Int) = i) : toBytesBE n i.toNat = b := by
  refine beValue_inj (by simp [hb]) ?_
  rw [beValue_toBytesBE, Nat.mod_eq_of_lt (by omega)]
  omega

/-- **C128** (numbers). A number is accepted exactly when it is that of an IP address: an IPv4 address below `2^32`, else an IPv6 address; the address is
that of its bytes. -/
theorem C128_numbers (L : IpLib) (i : Int) (a : NetAddr) : NetAddr.new L (.int i) = .ok a ↔
    ∃ b, (beValue b : Int) = i ∧ (i < 2 ^ 32 ∧ b.length = 4 ∨ 2 ^ 32 ≤ i ∧ b.length = 16) ∧ IpIs b a := by
  simp only [NetAddr.new, packedOfInt]
  have hlt : ∀ b : Bytes, (beValue b : Int) < (256 ^ b.length : Nat) := by
    intro b
    have : toBytesBE b.length (beValue b) = toBytesBE b.length (beValue b) := rfl
    have h : ∀ b : Bytes, beValue b < 256 ^ b.length := by
      intro b
      have e := beValue_reverse b.reverse
      rw [List.reverse_reverse] at e
      rw [e]
      have : ∀ l : Bytes, leValue l < 256 ^ l.length := by
        intro l
        induction l with
        | nil => simp [leValue]
        | cons x l ih =>
          have := x.toNat_lt
          simp only [leValue, List.length_cons, Nat.pow_succ]
          omega
      simpa using this b.reverse
    exact_mod_cast h b
  by_cases h0 : i < 0
  · rw [if_pos h0]
    constructor
    · intro e; cases e
    · rintro ⟨b, hv, -⟩; omega
  · rw [if_neg h0]
    by_cases h1 : i < 2 ^ 32
    · rw [if_pos h1]
      constructor
      · intro e
        refine ⟨toBytesBE 4 i.toNat, ?_, .inl ⟨h1, by simp⟩, (ipIs_iff _ _).1 (Except.ok.inj e)⟩
        rw [beValue_toBytesBE, Nat.mod_eq_of_lt (by omega)]; omega
      · rintro ⟨b, hv, ⟨-, hl⟩ | ⟨h, -⟩, hi⟩
        · have e := beValue_toBytes (by omega) (by omega) hl hv
          show Except.ok (netOfPacked (toBytesBE 4 i.toNat)) = _
          rw [e, (ipIs_iff b a).2 hi]
        · omega
    · rw [if_neg h1]
      by_cases h2 : i < 2 ^ 128
      · rw [if_pos h2]
        constructor
        · intro e
          refine ⟨toBytesBE 16 i.toNat, ?_, .inr ⟨by omega, by simp⟩, (ipIs_iff _ _).1 (Except.ok.inj e)⟩
          rw [beValue_toBytesBE, Nat.mod_eq_of_lt (by omega)]; omega
        · rintro ⟨b, hv, ⟨h, -⟩ | ⟨-, hl⟩, hi⟩
          · omega
          · have e := beValue_toBytes (by omega) (by omega) hl hv
            show Except.ok (netOfPacked (toBytesBE 16 i.toNat)) = _
            rw [e, (ipIs_iff b a).2 hi]
      · rw [if_neg h2]
        constructor
        · intro e; cases e
        · rintro ⟨b, hv, ⟨h, -⟩ | ⟨-, hl⟩, -⟩
          · omega
          · have := hlt b
            rw [hl] at this; omega
/-- `1.2.3.4` and `::ffff:1.2.3.4` as numbers, and `::1:0:0`; a negative number and one of more than 128 bits are refused. -/
example : NetAddr.new toyIp (.int 0x01020304) = .ok ⟨.ipv4, [1, 2, 3, 4]⟩ ∧ NetAddr.new toyIp (.int 0xffff01020304) = .ok ⟨.ipv4, [1, 2, 3, 4]⟩ ∧
    NetAddr.new toyIp (.int 0x100000000) = .ok ⟨.ipv6, [0, 0, 0, 0, 0, 0, 0, 0, 0, 0, 0, 1, 0, 0, 0, 0]⟩ ∧
    NetAddr.new toyIp (.int (-1)) = .error .valueError ∧ NetAddr.new toyIp (.int (2 ^ 128)) = .error .valueError := by decide +kernel

end TF.Props
