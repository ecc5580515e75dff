import Verif.Lemmas.Regex
import Verif.Lemmas.SelfDelim
import Verif.Lemmas.Text
import Verif.Spec.Ip
/-!
# Properties C66–C68: types/ThreeBot.py, types/ERC20.py
-/
namespace TF.Props
open TF Spec

/-! ## Character classes -/

theorem isAlpha_iff (c : Char) : isAlpha c = true ↔ IsLetter c := by simp [isAlpha, IsLetter]
theorem isNum_iff (c : Char) : isNum c = true ↔ IsDigit c := by simp [isNum, IsDigit]
theorem isAlnum_iff (c : Char) : isAlnum c = true ↔ IsLetter c ∨ IsDigit c := by simp [isAlnum, isAlpha_iff, isNum_iff]

/-! ## C67 -/

theorem group_iff (lo hi : Nat) (h : lo ≤ hi) (g : Str) : Lang (nameGroupRe lo hi) g ↔
    (lo + 2 ≤ g.length ∧ g.length ≤ hi + 2 ∧ (∃ c, g.head? = some c ∧ IsLetter c) ∧
      (∃ c, g.getLast? = some c ∧ (IsLetter c ∨ IsDigit c)) ∧ ∀ c ∈ g, IsLetter c ∨ IsDigit c ∨ c = '-') := by
  have hp : ∀ c : Char, ((isAlnum c || c == '-') = true) ↔ (IsLetter c ∨ IsDigit c ∨ c = '-') := by
    intro c; simp [isAlnum_iff, or_assoc]
  simp only [nameGroupRe, Lang, lang_rep _ lo hi h, isAlpha_iff, isAlnum_iff, hp]
  constructor
  · rintro ⟨_, _, rfl, ⟨c, rfl, hc⟩, m, _, rfl, ⟨h1, h2, hm⟩, d, rfl, hd⟩
    refine ⟨by simp; omega, by simp; omega, ⟨c, rfl, hc⟩, ⟨d, by simp [List.getLast?_cons], hd⟩, ?_⟩
    intro x hx
    simp only [List.cons_append, List.nil_append, List.mem_cons, List.mem_append, List.not_mem_nil, or_false] at hx
    rcases hx with rfl | hx | rfl
    · exact .inl hc
    · exact hm x hx
    · rcases hd with hd | hd
      · exact .inl hd
      · exact .inr (.inl hd)
  · rintro ⟨h1, h2, ⟨c, hc, hc'⟩, ⟨d, hd, hd'⟩, hall⟩
    cases g with
    | nil => cases hc
    | cons x g =>
      simp only [List.head?_cons, Option.some.injEq] at hc; subst hc
      have hg : g ≠ [] := by rintro rfl; simp at h1
      have hl : g.getLast? = some d := by
        rw [List.getLast?_cons] at hd
        cases hgl : g.getLast? with
        | none => simp at hgl; exact absurd hgl hg
        | some y => rw [hgl] at hd; simpa using hd
      have e : g = g.dropLast ++ [d] := by
        have := List.dropLast_concat_getLast hg
        rw [← this, List.getLast?_append] at hl
        simp at hl
        rw [hl] at this; exact this.symm
      refine ⟨[x], g, rfl, ⟨x, rfl, hc'⟩, g.dropLast, [d], e, ⟨?_, ?_, ?_⟩, d, rfl, hd'⟩
      · simp at h1 ⊢; omega
      · simp at h2 ⊢; omega
      · intro y hy; exact hall y (List.mem_cons_of_mem _ (List.dropLast_subset _ hy))

theorem star_groups (L : Str → Prop) (s : Str) :
    Star (fun s => ∃ u v, s = u ++ v ∧ (∃ c, u = [c] ∧ (c == '.') = true) ∧ L v) s ↔
      ∃ gs : List Str, (∀ x ∈ gs, L x) ∧ s = gs.flatMap fun x => '.' :: x := by
  constructor
  · intro h
    induction h with
    | nil => exact ⟨[], by simp, rfl⟩
    | cons hu _ ih =>
      obtain ⟨_, v, rfl, ⟨c, rfl, hc⟩, hv⟩ := hu
      obtain ⟨gs, hgs, rfl⟩ := ih
      have : c = '.' := by simpa using hc
      subst this
      exact ⟨v :: gs, by simpa using ⟨hv, hgs⟩, by simp⟩
  · rintro ⟨gs, hgs, rfl⟩
    induction gs with
    | nil => exact Star.nil
    | cons g gs ih =>
      have := Star.cons (L := fun s => ∃ u v, s = u ++ v ∧ (∃ c, u = [c] ∧ (c == '.') = true) ∧ L v)
        (u := '.' :: g) ⟨['.'], g, rfl, ⟨'.', rfl, rfl⟩, hgs g (by simp)⟩ (ih fun x hx => hgs x (by simp [hx]))
      simpa using this

theorem botName_iff (s : Str) (hl : s.length ≤ 63) : botNameRe.test s = true ↔ GoodName s := by
  rw [test_iff]
  simp only [botNameRe, Lang]
  constructor
  · rintro ⟨g, t, rfl, hg, ht⟩
    obtain ⟨gs, hgs, rfl⟩ := (star_groups _ _).1 ht
    refine ⟨hl, g, gs, ?_, ?_, rfl⟩
    · obtain ⟨h1, -, h2, h3, h4⟩ := (group_iff 3 61 (by omega) g).1 hg
      exact ⟨h1, h2, h3, h4⟩
    · intro x hx
      obtain ⟨h1, -, h2, h3, h4⟩ := (group_iff 3 55 (by omega) x).1 (hgs x hx)
      exact ⟨h1, h2, h3, h4⟩
  · rintro ⟨_, g, gs, hg, hgs, rfl⟩
    have len : ∀ x ∈ gs, x.length + 1 ≤ (gs.flatMap fun x => '.' :: x).length := by
      intro x hx
      obtain ⟨a, b, rfl⟩ := List.append_of_mem hx
      simp; omega
    rw [List.length_append] at hl
    refine ⟨g, _, rfl, (group_iff 3 61 (by omega) g).2 ⟨hg.1, by omega, hg.2⟩, (star_groups _ _).2 ⟨gs, ?_, rfl⟩⟩
    intro x hx
    have := len x hx
    have := hg.1
    exact (group_iff 3 55 (by omega) x).2 ⟨(hgs x hx).1, by omega, (hgs x hx).2⟩

/-- **C67** (what holds). A text is accepted as a 3Bot name exactly when it is a well-formed name of at most 63 characters — or such
a name followed by one newline (see the finding). The stored name is the text. -/
theorem C67_bot_name_partial (s : Str) :
    (∀ n, BotName.new (.str s) = .ok n → n.value = s) ∧
    ((∃ n, BotName.new (.str s) = .ok n) ↔ GoodName s ∨ ∃ t, s = t ++ ['\n'] ∧ s.length ≤ 63 ∧ GoodName t) := by
  constructor
  · intro n h
    simp only [BotName.new] at h
    split at h
    · cases h
    · split at h
      · cases h
      · cases h; rfl
  · simp only [BotName.new]
    by_cases hl : s.length > 63
    · rw [if_pos hl]
      constructor
      · rintro ⟨n, h⟩; cases h
      · rintro (h | ⟨t, -, h, -⟩)
        · have := h.1; omega
        · omega
    · rw [if_neg hl]
      have key : botNameRe.matchDollar s = true ↔ GoodName s ∨ ∃ t, s = t ++ ['\n'] ∧ s.length ≤ 63 ∧ GoodName t := by
        unfold Re.matchDollar
        simp only [Bool.or_eq_true, Bool.and_eq_true, beq_iff_eq]
        rw [botName_iff s (by omega), botName_iff s.dropLast (by simp; omega)]
        constructor
        · rintro (h | ⟨h, h'⟩)
          · exact .inl h
          · right
            obtain ⟨t, rfl⟩ := List.getLast?_eq_some_iff.1 h
            refine ⟨t, rfl, by omega, ?_⟩
            rwa [List.dropLast_concat] at h'
        · rintro (h | ⟨t, rfl, h1, h2⟩)
          · exact .inl h
          · right; exact ⟨by simp, by rwa [List.dropLast_concat]⟩
      rw [← key]
      by_cases hm : botNameRe.matchDollar s = true
      · simp [hm]
      · simp [hm]

example : GoodName "demo-bot.alpha1".toList := by
  refine ⟨by decide, "demo-bot".toList, ["alpha1".toList], ?_, ?_, by decide⟩
  · refine ⟨by decide, ⟨'d', by decide, by unfold IsLetter; decide⟩, ⟨'t', by decide, by unfold IsLetter IsDigit; decide⟩, ?_⟩
    unfold IsLetter IsDigit; decide
  · intro x hx
    have : x = "alpha1".toList := by simpa using hx
    subst this
    refine ⟨by decide, ⟨'a', by decide, by unfold IsLetter; decide⟩, ⟨'1', by decide, by unfold IsLetter IsDigit; decide⟩, ?_⟩
    unfold IsLetter IsDigit; decide

/-- **C67** (finding). `$` in the pattern also matches before a final newline: a name with a trailing newline is accepted. -/
theorem C67_bot_name_false : ¬ ∀ (s : Str) (n : BotName), BotName.new (.str s) = .ok n → GoodName s := by
  intro h
  obtain ⟨-, g, gs, hg, hgs, e⟩ := h "demobot\n".toList ⟨"demobot\n".toList⟩ (by decide +kernel)
  have hmem : '\n' ∈ g ∨ ∃ x ∈ gs, '\n' ∈ x := by
    have : '\n' ∈ "demobot\n".toList := by decide
    rw [e] at this
    rcases List.mem_append.1 this with h | h
    · exact .inl h
    · obtain ⟨x, hx, h⟩ := List.mem_flatMap.1 h
      rcases List.mem_cons.1 h with h | h
      · exact absurd h (by decide)
      · exact .inr ⟨x, hx, h⟩
  have bad : ¬ (IsLetter '\n' ∨ IsDigit '\n' ∨ '\n' = '-') := by unfold IsLetter IsDigit; decide
  rcases hmem with h | ⟨x, hx, h⟩
  · exact bad (hg.2.2.2 _ h)
  · exact bad ((hgs x hx).2.2.2 _ h)

/-! ## C68 -/

/-- The text without an optional `0x` / `0X`. -/
def withoutPrefix (s : Str) : Str := if s.take 2 = ['0', 'x'] ∨ s.take 2 = ['0', 'X'] then s.drop 2 else s

theorem hexVal_facts {c : Char} (h : (hexVal c).isSome = true) :
    isAsciiSpace c = false ∧ isPySpace c = false ∧ c ≠ '+' ∧ c ≠ '-' ∧ c ≠ 'x' ∧ c ≠ 'X' ∧ c ≠ '_' := by
  have hn : (48 ≤ c.toNat ∧ c.toNat ≤ 57) ∨ (97 ≤ c.toNat ∧ c.toNat ≤ 102) ∨ (65 ≤ c.toNat ∧ c.toNat ≤ 70) := by
    unfold hexVal at h
    simp only at h
    split at h
    · left; assumption
    · split at h
      · right; left; assumption
      · split at h
        · right; right; assumption
        · cases h
  have ne : ∀ d : Char, ¬ ((48 ≤ d.toNat ∧ d.toNat ≤ 57) ∨ (97 ≤ d.toNat ∧ d.toNat ≤ 102) ∨ (65 ≤ d.toNat ∧ d.toNat ≤ 70)) → c ≠ d := by
    rintro d hd rfl; exact hd hn
  refine ⟨?_, ?_, ne _ (by decide), ne _ (by decide), ne _ (by decide), ne _ (by decide), ne _ (by decide)⟩
  · have h1 := ne ' ' (by decide)
    have h2 := ne '\t' (by decide)
    have h3 := ne '\n' (by decide)
    have h4 := ne '\r' (by decide)
    simp only [isAsciiSpace, Bool.or_eq_false_iff, beq_eq_false_iff_ne]
    refine ⟨⟨⟨⟨⟨h1, h2⟩, h3⟩, h4⟩, ?_⟩, ?_⟩ <;> omega
  · simp only [isPySpace]
    simp
    omega

theorem fromHex_digits : ∀ s : Str, (∀ c ∈ s, (hexVal c).isSome = true) →
    (s.length % 2 = 0 → ∃ b, fromHex s = some b ∧ 2 * b.length = s.length) ∧ (s.length % 2 = 1 → fromHex s = none)
  | [], _ => ⟨fun _ => ⟨[], rfl, rfl⟩, fun h => by simp at h⟩
  | [c], h => ⟨fun h => by simp at h, fun _ => by
      have := (hexVal_facts (h c (by simp))).1
      simp [fromHex, this]⟩
  | c :: d :: s, h => by
    have hc := h c (by simp)
    have hd := h d (by simp)
    obtain ⟨x, hx⟩ := Option.isSome_iff_exists.1 hc
    obtain ⟨y, hy⟩ := Option.isSome_iff_exists.1 hd
    have ih := fromHex_digits s (fun z hz => h z (by simp [hz]))
    have hs := (hexVal_facts hc).1
    constructor
    · intro hl
      obtain ⟨b, hb, hb'⟩ := ih.1 (by simp at hl; omega)
      refine ⟨UInt8.ofNat (x * 16 + y) :: b, ?_, by simp; omega⟩
      simp [fromHex, hs, hx, hy, hb]
    · intro hl
      have := ih.2 (by simp at hl; omega)
      simp [fromHex, hs, hx, hy, this]

theorem hexDigits_ok : ∀ (s : Str) (prev : Bool), (∀ c ∈ s, (hexVal c).isSome = true) → (prev = true ∨ s ≠ []) →
    pyIntHexOk.hexDigits prev s = true
  | [], prev, _, h => by simpa [pyIntHexOk.hexDigits] using h
  | c :: s, prev, h, _ => by
    simp only [pyIntHexOk.hexDigits, h c (by simp), if_true]
    exact hexDigits_ok s true (fun x hx => h x (by simp [hx])) (.inl rfl)

theorem pyIntHexOk_digits (s : Str) (h : ∀ c ∈ s, (hexVal c).isSome = true) (hne : s ≠ []) : pyIntHexOk s = true := by
  have hstrip : intText s = s := by
    apply intText_eq_self
    · intro c hc
      have := h c hc
      unfold hexVal at this
      dsimp only at this
      split at this
      · omega
      · split at this
        · omega
        · split at this
          · omega
          · simp at this
    · intro c hc; exact (hexVal_facts (h c (List.mem_of_mem_head? hc))).2.1
    · intro c hc; exact (hexVal_facts (h c (List.mem_of_mem_getLast? hc))).2.1
  unfold pyIntHexOk
  rw [hstrip]
  cases s with
  | nil => exact absurd rfl hne
  | cons c s =>
    have fc := hexVal_facts (h c (by simp))
    have e1 : dropSign (c :: s) = c :: s := by
      unfold dropSign
      split
      · rename_i r e; simp only [List.cons.injEq] at e; exact absurd e.1 fc.2.2.1
      · rename_i r e; simp only [List.cons.injEq] at e; exact absurd e.1 fc.2.2.2.1
      · rfl
    have nx : ∀ d : Char, d = 'x' ∨ d = 'X' → ∀ r : Str, c :: s ≠ '0' :: d :: r := by
      intro d hd r e
      simp only [List.cons.injEq] at e
      have := hexVal_facts (h d (by rw [e.2]; simp))
      rcases hd with rfl | rfl
      · exact this.2.2.2.2.1 rfl
      · exact this.2.2.2.2.2.1 rfl
    have e2 : dropHexPrefix (c :: s) = c :: s := by
      unfold dropHexPrefix
      split
      · rename_i r e; exact absurd e (nx _ (.inl rfl) _)
      · rename_i r e; exact absurd e (nx _ (.inr rfl) _)
      · rename_i r _ e; exact absurd e (nx _ (.inl rfl) _)
      · rename_i r _ e; exact absurd e (nx _ (.inr rfl) _)
      · rfl
    rw [e1, e2]
    exact hexDigits_ok (c :: s) false h (.inr hne)

/-- **C68** (what holds). For texts made of hex digits only (after an optional `0x`), the validity check and the constructor agree:
both accept exactly 40 digits, and then the address is the 20 bytes they denote. -/
theorem C68_erc20_valid_partial (s : Str) (h : ∀ c ∈ withoutPrefix s, (hexVal c).isSome = true) :
    (erc20ValidStr s = true ↔ ∃ b, erc20New 20 (.str s) = .ok b ∧ b.length = 20) ∧
    (erc20ValidStr s = true ↔ (withoutPrefix s).length = 40) := by
  have hv : erc20ValidStr s = true ↔ (withoutPrefix s).length = 40 := by
    unfold erc20ValidStr
    simp only
    rw [show (if s.take 2 = ['0', 'x'] ∨ s.take 2 = ['0', 'X'] then s.drop 2 else s) = withoutPrefix s from rfl]
    split
    · rename_i hl; simp [hl]
    · rename_i hl
      have hl : (withoutPrefix s).length = 40 := by omega
      rw [pyIntHexOk_digits _ h (by intro e; rw [e] at hl; simp at hl)]
      simp [hl]
  refine ⟨hv.trans ?_, hv⟩
  have hn : erc20New 20 (.str s) = (match fromHex (withoutPrefix s) with
      | some b => if b.length ≠ 0 ∧ b.length ≠ 20 then .error .valueError else .ok b
      | none => .error .valueError) := by
    have e : StrEnc.hexprefix.fromStr s = fromHex (withoutPrefix s) := rfl
    cases hf : fromHex (withoutPrefix s) with
    | none => simp [erc20New, BinData.new, BinData.set, BVal.norm, e, bind, Except.bind, hf]
    | some b =>
      simp only
      by_cases hb : b.length ≠ 0 ∧ b.length ≠ 20
      · rw [if_pos hb]; simp [erc20New, BinData.new, BinData.set, BVal.norm, e, hf, bind, Except.bind, throw, throwThe, MonadExceptOf.throw, hb]
      · rw [if_neg hb]
        simp [erc20New, BinData.new, BinData.set, BVal.norm, e, hf, bind, Except.bind, pure, Except.pure]
        rw [if_neg (by intro h; exact hb ⟨by simpa using h.1, h.2⟩)]
  rw [hn]
  have hd := fromHex_digits (withoutPrefix s) h
  rcases Nat.mod_two_eq_zero_or_one (withoutPrefix s).length with hm | hm
  · obtain ⟨b, hb, hl⟩ := hd.1 hm
    rw [hb]
    simp only
    constructor
    · intro h40
      have : b.length = 20 := by omega
      exact ⟨b, by rw [if_neg (by omega)], this⟩
    · rintro ⟨b', hb', hl'⟩
      split at hb'
      · cases hb'
      · cases hb'; omega
  · rw [hd.2 hm]
    constructor
    · intro h40; omega
    · rintro ⟨b', hb', -⟩; cases hb'

example : erc20ValidStr "0x00000000000000000000000000000000000000ff".toList = true ∧
    ∀ c ∈ withoutPrefix "0x00000000000000000000000000000000000000ff".toList, (hexVal c).isSome = true := by decide +kernel

/-- **C68** (bytes and address objects). Bytes are valid exactly when an address is made of them; an address object exactly when it holds an
address, and an object made of anything holds one or nothing; nothing else is valid. -/
theorem C68_values (b : Bytes) :
    ((Erc20Candidate.bytes b).valid = true ↔ b ≠ [] ∧ erc20New 20 (.bytes b) = .ok b) ∧
    (b ≠ [] → (Erc20Candidate.bytes b).valid = false → erc20New 20 (.bytes b) = .error .valueError) ∧
    (∀ v a, erc20New 20 v = .ok a → ((Erc20Candidate.address a).valid = true ∧ a.length = 20) ∨ ((Erc20Candidate.address a).valid = false ∧ a = [])) ∧
    Erc20Candidate.other.valid = false := by
  have hnew : ∀ v : BVal, erc20New 20 v = (v.norm .hexprefix).bind fun b => if b.length ≠ 0 ∧ b.length ≠ 20 then .error .valueError else .ok b := by
    intro v
    unfold erc20New BinData.new BinData.set
    simp only [bind, Except.bind]
    cases v.norm .hexprefix with
    | error e => rfl
    | ok b =>
      simp only [show ((20 : Nat) : Int) = 20 from rfl]
      rw [if_neg (by decide : ¬ ((20 : Int) < 0)), if_pos (by decide : (20 : Int) ≠ 0)]
      simp only [show Int.toNat 20 = 20 from rfl]
      by_cases h : b.length ≠ 0 ∧ b.length ≠ 20
      · rw [if_pos h, if_pos h]; rfl
      · rw [if_neg h, if_neg h]; rfl
  have hb : erc20New 20 (.bytes b) = if b.length ≠ 0 ∧ b.length ≠ 20 then .error .valueError else .ok b := hnew _
  have h0 : b ≠ [] → b.length ≠ 0 := fun hb => by simpa using hb
  refine ⟨⟨fun h => ?_, fun ⟨h1, h2⟩ => ?_⟩, fun h1 h2 => ?_, fun v a h => ?_, rfl⟩
  · have hl : b.length = 20 := by simpa [Erc20Candidate.valid] using h
    exact ⟨by rintro rfl; simp at hl, by rw [hb, if_neg (by omega)]⟩
  · rw [hb] at h2
    have := h0 h1
    by_cases h : b.length = 20
    · simp [Erc20Candidate.valid, h]
    · rw [if_pos ⟨this, h⟩] at h2; cases h2
  · have hl : b.length ≠ 20 := by simpa [Erc20Candidate.valid] using h2
    rw [hb, if_pos ⟨h0 h1, hl⟩]
  · rw [hnew] at h
    cases hn : v.norm .hexprefix with
    | error e => rw [hn] at h; cases h
    | ok x =>
      rw [hn] at h
      simp only [Except.bind] at h
      by_cases hx : x.length ≠ 0 ∧ x.length ≠ 20
      · rw [if_pos hx] at h; cases h
      · rw [if_neg hx] at h
        cases h
        by_cases e : a.length = 0
        · exact .inr ⟨by simp [Erc20Candidate.valid, e], by simpa using e⟩
        · have : a.length = 20 := by omega
          exact .inl ⟨by simp [Erc20Candidate.valid, this], this⟩

example : (Erc20Candidate.bytes (List.replicate 20 7)).valid = true ∧ (Erc20Candidate.bytes (List.replicate 21 7)).valid = false := by decide

/-- **C68** (finding). The check accepts texts the constructor refuses (underscores, a sign, white space, a doubled `0x`), and
refuses texts the constructor accepts (white space between the bytes). -/
theorem C68_erc20_valid_false :
    (∀ s ∈ ["0_0000000000000000000000000000000000000f".toList, "-000000000000000000000000000000000000001".toList,
        "  00000000000000000000000000000000000001".toList, "0x0x00000000000000000000000000000000000001".toList],
      erc20ValidStr s = true ∧ ¬ ∃ b, erc20New 20 (.str s) = .ok b ∧ b.length = 20) ∧
    (∃ s b, erc20ValidStr s = false ∧ erc20New 20 (.str s) = .ok b ∧ b.length = 20) := by
  constructor
  · intro s hs
    have key : ∀ s : Str, (match erc20New 20 (.str s) with
        | .ok b => b.length ≠ 20
        | .error _ => True) → ¬ ∃ b, erc20New 20 (.str s) = .ok b ∧ b.length = 20 := by
      rintro s h ⟨b, hb, hl⟩
      rw [hb] at h
      exact h hl
    have : ∀ s ∈ ["0_0000000000000000000000000000000000000f".toList, "-000000000000000000000000000000000000001".toList,
        "  00000000000000000000000000000000000001".toList, "0x0x00000000000000000000000000000000000001".toList],
      erc20ValidStr s = true ∧ (erc20New 20 (.str s)).toOption.all (fun b => b.length ≠ 20) := by decide +kernel
    obtain ⟨h1, h2⟩ := this s hs
    refine ⟨h1, key s ?_⟩
    cases he : erc20New 20 (.str s) with
    | error e => trivial
    | ok b => rw [he] at h2; simpa [Except.toOption] using h2
  · exact ⟨"0000000000000000000000000000000000000000".toList.flatMap (fun c => if c = '0' then ['0'] else []) |>.append [' '],
      List.replicate 20 0, by decide +kernel, by decide +kernel, by decide⟩

/-! ## C66 -/

theorem utf8_ascii : ∀ s : Str, IsAscii s → (utf8 s).map (fun b => Char.ofNat b.toNat) = s
  | [], _ => rfl
  | c :: s, h => by
    have hc := h c (by simp)
    have ih := utf8_ascii s (fun x hx => h x (by simp [hx]))
    have h1 : String.utf8EncodeChar c = [UInt8.ofNat c.toNat] := by
      unfold String.utf8EncodeChar
      simp only
      rw [if_pos (by show c.val.toNat ≤ 0x7f; have : c.val.toNat = c.toNat := rfl; omega)]
      rfl
    simp only [utf8, List.flatMap_cons, h1, List.cons_append, List.nil_append, List.map_cons]
    rw [show (List.flatMap String.utf8EncodeChar s).map (fun b : UInt8 => Char.ofNat b.toNat) = s from ih]
    have : (UInt8.ofNat c.toNat).toNat = c.toNat := by simp; omega
    rw [this, Char.ofNat_toNat]

theorem ascii_of_letter {c : Char} (h : isAlnum c = true ∨ c = '-' ∨ c = '_' ∨ c = '.') : c.toNat < 128 := by
  rcases h with h | rfl | rfl | rfl
  · rcases (isAlnum_iff c).1 h with (⟨_, h⟩ | ⟨_, h⟩) | ⟨_, h⟩
    · have : c.toNat ≤ 'Z'.toNat := h
      have e : 'Z'.toNat = 90 := rfl
      omega
    · have : c.toNat ≤ 'z'.toNat := h
      have e : 'z'.toNat = 122 := rfl
      omega
    · have : c.toNat ≤ '9'.toNat := h
      have e : '9'.toNat = 57 := rfl
      omega
  all_goals decide

/-- The characters a hostname may contain. -/
theorem hostname_chars (s : Str) (h : hostnameRe.test s = true) : ∀ c ∈ s, c.toNat < 128 := by
  have hal : ∀ c, isAlpha c = true → isAlnum c = true := by intro c h; simp [isAlnum, h]
  have hnu : ∀ c, isNum c = true → isAlnum c = true := by intro c h; simp [isAlnum, h]
  rw [test_iff] at h
  simp only [hostnameRe, Lang, lang_rep _ 1 61 (by omega), lang_rep _ 2 6 (by omega), lang_rep _ 2 30 (by omega), lang_rep _ 2 3 (by omega)] at h
  obtain ⟨u, w, rfl, hu, d, v, rfl, ⟨cd, rfl, hd⟩, hv⟩ := h
  have hcd : cd = '.' := by simpa using hd
  subst hcd
  have cu : ∀ c ∈ u, isAlnum c = true ∨ c = '-' ∨ c = '_' ∨ c = '.' := by
    rcases hu with ⟨c, rfl, h⟩ | ⟨a, b, rfl, ⟨c, rfl, h⟩, c', rfl, h'⟩ | ⟨a, b, rfl, ⟨c, rfl, h⟩, c', rfl, h'⟩ |
      ⟨a, b, rfl, ⟨c, rfl, h⟩, c', rfl, h'⟩ | ⟨a, b, rfl, ⟨c, rfl, h⟩, m, e, rfl, ⟨-, -, hm⟩, c', rfl, h'⟩
    · intro x hx; simp at hx; subst hx; exact .inl (hal _ h)
    · intro x hx; simp at hx; rcases hx with rfl | rfl
      · exact .inl (hal _ h)
      · exact .inl (hal _ h')
    · intro x hx; simp at hx; rcases hx with rfl | rfl
      · exact .inl (hal _ h)
      · exact .inl (hnu _ h')
    · intro x hx; simp at hx; rcases hx with rfl | rfl
      · exact .inl (hnu _ h)
      · exact .inl (hal _ h')
    · intro x hx
      simp only [List.cons_append, List.nil_append, List.mem_cons, List.mem_append, List.not_mem_nil, or_false] at hx
      rcases hx with rfl | hx | rfl
      · exact .inl h
      · have := hm x hx
        simp only [Bool.or_eq_true, beq_iff_eq] at this
        rcases this with (h | h) | h
        · exact .inl h
        · exact .inr (.inl h)
        · exact .inr (.inr (.inl h))
      · exact .inl h'
  have cv : ∀ c ∈ v, isAlnum c = true ∨ c = '-' ∨ c = '_' ∨ c = '.' := by
    rcases hv with ⟨-, -, h⟩ | ⟨a, b, rfl, ⟨-, -, ha⟩, e, f, rfl, ⟨c, rfl, hc⟩, -, -, hf⟩
    · intro x hx; exact .inl (hal _ (h x hx))
    · intro x hx
      simp only [List.cons_append, List.nil_append, List.mem_cons, List.mem_append] at hx
      rcases hx with hx | rfl | hx
      · have := ha x hx
        simp only [Bool.or_eq_true, beq_iff_eq] at this
        rcases this with h | h
        · exact .inl h
        · exact .inr (.inl h)
      · exact .inr (.inr (.inr (by simpa using hc)))
      · exact .inl (hal _ (hf x hx))
  intro c hc
  simp only [List.cons_append, List.nil_append, List.mem_cons, List.mem_append] at hc
  rcases hc with hc | rfl | hc
  · exact ascii_of_letter (cu c hc)
  · decide
  · exact ascii_of_letter (cv c hc)

theorem hostname_ascii (s : Str) (h : hostnameRe.matchDollar s = true) : IsAscii s := by
  unfold Re.matchDollar at h
  simp only [Bool.or_eq_true, Bool.and_eq_true, beq_iff_eq] at h
  rcases h with h | ⟨h, h'⟩
  · exact hostname_chars s h
  · obtain ⟨t, rfl⟩ := List.getLast?_eq_some_iff.1 h
    rw [List.dropLast_concat] at h'
    intro c hc
    rcases List.mem_append.1 hc with hc | hc
    · exact hostname_chars t h' c hc
    · simp at hc; subst hc; decide

theorem netOfPacked_kind (b : Bytes) (hb : b.length = 4 ∨ b.length = 16) :
    (∃ x, netOfPacked b = ⟨.ipv4, x⟩ ∧ x.length = 4 ∧ (b = x ∨ b = mappedV4 x)) ∨
    (netOfPacked b = ⟨.ipv6, b⟩ ∧ b.length = 16 ∧ b.take 12 ≠ [0, 0, 0, 0, 0, 0, 0, 0, 0, 0, 255, 255]) := by
  unfold netOfPacked
  split
  · rename_i h; exact .inl ⟨b, rfl, h, .inl rfl⟩
  · split
    · rename_i h h'
      refine .inl ⟨b.drop 12, rfl, by simp; omega, .inr ?_⟩
      unfold mappedV4; rw [← h', List.take_append_drop]
    · rename_i h h'; exact .inr ⟨rfl, by omega, h'⟩

/-- The possible results of making a network address. -/
theorem net_new (L : IpLib) (hL : LawfulIp L) (v : NetArg) (hv : ∀ a, v ≠ .net a) (a : NetAddr) (h : NetAddr.new L v = .ok a) :
    (a.kind = .hostname ∧ a.addr.length ≤ 63 ∧ (a.addr = [] ∨ ∃ s, a.addr = utf8 s ∧ s ≠ [] ∧ hostnameRe.matchDollar s = true ∧ s.length ≤ 63)) ∨
    (a.kind = .ipv4 ∧ a.addr.length = 4) ∨
    (a.kind = .ipv6 ∧ a.addr.length = 16 ∧ a.addr.take 12 ≠ [0, 0, 0, 0, 0, 0, 0, 0, 0, 0, 255, 255]) := by
  have packed : ∀ b : Bytes, b.length = 4 ∨ b.length = 16 → a = netOfPacked b →
      (a.kind = .ipv4 ∧ a.addr.length = 4) ∨
      (a.kind = .ipv6 ∧ a.addr.length = 16 ∧ a.addr.take 12 ≠ [0, 0, 0, 0, 0, 0, 0, 0, 0, 0, 255, 255]) := by
    intro b hb e
    rcases netOfPacked_kind b hb with ⟨x, hx, hl, -⟩ | ⟨hx, hl, ht⟩
    · rw [hx] at e; subst e; exact .inl ⟨rfl, hl⟩
    · rw [hx] at e; subst e; exact .inr ⟨rfl, hl, ht⟩
  cases v with
  | none => cases h; exact .inl ⟨rfl, by simp, .inl rfl⟩
  | net a => exact absurd rfl (hv a)
  | other => cases h
  | int i =>
    simp only [NetAddr.new] at h
    right
    split at h
    · rename_i b hb
      cases h
      refine packed b ?_ rfl
      unfold packedOfInt at hb
      split at hb
      · cases hb
      · split at hb
        · cases hb; left; simp
        · split at hb
          · cases hb; right; simp
          · cases hb
    · cases h
  | str s =>
    simp only [NetAddr.new] at h
    split at h
    · rename_i hm
      split at h
      · cases h
      · rename_i hl
        cases h
        have ha := hostname_ascii s hm
        have := (utf8_length_eq_iff s).2 ha
        refine .inl ⟨rfl, by simp only; omega, .inr ⟨s, rfl, ?_, hm, by omega⟩⟩
        rintro rfl
        revert hm; decide
    · right
      split at h
      · rename_i b hb; cases h; exact packed b (hL.size _ _ hb) rfl
      · cases h

/-- **C66** (wire form). Every network address made from text, a number or nothing is encoded, and whatever follows it in the stream
the reader of the published format finds exactly its kind and bytes. -/
theorem C66_net_address_wire (L : IpLib) (hL : LawfulIp L) (v : NetArg) (hv : ∀ a, v ≠ .net a) (a : NetAddr)
    (h : NetAddr.new L v = .ok a) :
    ∃ x, a.riv = ⟨x, none⟩ ∧ a.sia = ⟨x, none⟩ ∧ ∀ rest, netDecode (x ++ rest) = some (a.kind.toNat, a.addr, rest) := by
  have hl : a.addr.length ≤ 63 := by rcases net_new L hL v hv a h with h | h | h <;> omega
  have hk : a.kind.toNat < 4 := by cases a.kind <;> decide
  have hor : a.kind.toNat ||| (a.addr.length <<< 2) = a.kind.toNat + a.addr.length * 4 := or_shl _ _ 2 hk
  have hr : a.riv = ⟨UInt8.ofNat (a.kind.toNat + a.addr.length * 4) :: a.addr, none⟩ := by
    unfold NetAddr.riv rivInt8
    rw [hor, rivInt_ok (by omega) (by omega)]
    simp [Out.andThen, Out.ok, toBytesLE]
    apply UInt8.toNat_inj.1
    simp
    omega
  refine ⟨_, hr, ?_, fun rest => ?_⟩
  · unfold NetAddr.sia; rw [hr]; rfl
  · have e : (UInt8.ofNat (a.kind.toNat + a.addr.length * 4)).toNat = a.kind.toNat + a.addr.length * 4 := by
      simp; omega
    have e4 : (a.kind.toNat + a.addr.length * 4) / 4 = a.addr.length := by omega
    have e5 : (a.kind.toNat + a.addr.length * 4) % 4 = a.kind.toNat := by omega
    simp only [netDecode, List.cons_append, e, e4, e5]
    rw [if_pos (by simp)]
    simp

/-- **C66** (normalisation). An IPv4-mapped IPv6 address gives the same network address as the IPv4 address, from text or number, and
an address kept as IPv6 is never IPv4-mapped. -/
theorem C66_mapped_is_v4 (L : IpLib) (hL : LawfulIp L) :
    (∀ (s s' : Str) (b : Bytes), b.length = 4 → L.parse s = some (mappedV4 b) → L.parse s' = some b →
      hostnameRe.matchDollar s = false → hostnameRe.matchDollar s' = false →
      NetAddr.new L (.str s) = .ok ⟨.ipv4, b⟩ ∧ NetAddr.new L (.str s') = .ok ⟨.ipv4, b⟩) ∧
    (∀ (v : NetArg) (a : NetAddr), (∀ x, v ≠ .net x) → NetAddr.new L v = .ok a → a.kind = .ipv6 → ∀ b, a.addr ≠ mappedV4 b) := by
  constructor
  · intro s s' b hb h1 h2 n1 n2
    constructor
    · simp only [NetAddr.new, n1, h1]
      simp [netOfPacked, mappedV4, hb]
    · simp only [NetAddr.new, n2, h2]
      simp [netOfPacked, hb]
  · intro v a hv h hk b e
    rcases net_new L hL v hv a h with h | h | h
    · rw [hk] at h; cases h.1
    · rw [hk] at h; cases h.1
    · exact h.2.2 (by rw [e]; simp [mappedV4])

/-- **C66** (text form). A network address survives JSON. -/
theorem C66_net_address_json (L : IpLib) (hL : LawfulIp L) (v : NetArg) (hv : ∀ a, v ≠ .net a) (a : NetAddr)
    (h : NetAddr.new L v = .ok a) : NetAddr.fromJson L (.str (a.json L)) = .ok a := by
  obtain ⟨k, ad⟩ := a
  rcases net_new L hL v hv _ h with ⟨hk, -, hx⟩ | ⟨hk, hl⟩ | ⟨hk, hl, ht⟩
  · simp only at hk hx; subst hk
    rcases hx with rfl | ⟨s, rfl, hne, hm, hl⟩
    · rfl
    · simp only [NetAddr.json, utf8_ascii s (hostname_ascii s hm), NetAddr.fromJson, if_neg hne, NetAddr.new, hm, if_true]
      rw [if_neg (by omega)]
  · simp only at hk hl; subst hk
    have hn := hL.notHost ad (.inl hl)
    rw [show (NetAddr.mk .ipv4 ad).json L = L.print ad from rfl]
    simp only [NetAddr.fromJson]
    rw [if_neg hn.2]
    simp only [NetAddr.new, hn.1, hL.roundtrip ad (.inl hl)]
    simp [netOfPacked, hl]
  · simp only at hk hl ht; subst hk
    have hn := hL.notHost ad (.inr hl)
    rw [show (NetAddr.mk .ipv6 ad).json L = L.print ad from rfl]
    simp only [NetAddr.fromJson]
    rw [if_neg hn.2]
    simp only [NetAddr.new, hn.1, hL.roundtrip ad (.inr hl)]
    simp [netOfPacked, hl, ht]

/-- A lawful (if unusual) `ipaddress` module, to show that the hypotheses can be met. -/
def toyIp : IpLib where
  parse
    | ':' :: r => (fromHex r).filter fun b => b.length = 4 ∨ b.length = 16
    | _ => none
  print b := ':' :: toHex b

theorem toyIp_lawful : LawfulIp toyIp where
  size s b h := by
    unfold toyIp at h
    simp only at h
    split at h
    · simp [Option.filter_eq_some_iff] at h
      exact h.2
    · cases h
  roundtrip b hb := by simp [toyIp, fromHex_toHex, hb]
  notHost b hb := by
    refine ⟨?_, by simp [toyIp]⟩
    have hd : hostnameRe.test (':' :: toHex b) = false := by
      rw [Bool.eq_false_iff]
      intro h
      rw [test_iff] at h
      simp only [hostnameRe, Lang, lang_rep _ 1 61 (by omega)] at h
      obtain ⟨u, w, e, hu, -⟩ := h
      rcases hu with ⟨c, rfl, h⟩ | ⟨a, b, rfl, ⟨c, rfl, h⟩, c', rfl, h'⟩ | ⟨a, b, rfl, ⟨c, rfl, h⟩, c', rfl, h'⟩ |
        ⟨a, b, rfl, ⟨c, rfl, h⟩, c', rfl, h'⟩ | ⟨a, b, rfl, ⟨c, rfl, h⟩, m, e', rfl, ⟨-, -, hm⟩, c', rfl, h'⟩
      all_goals
        simp only [List.cons_append, List.nil_append, List.append_assoc, List.cons.injEq] at e
        obtain ⟨rfl, -⟩ := e
        exact absurd h (by decide)
    have hl : (':' :: toHex b).getLast? ≠ some '\n' := by
      intro h
      have := List.mem_of_mem_getLast? h
      simp only [List.mem_cons] at this
      rcases this with h | h
      · exact absurd h (by decide)
      · simp only [toHex, List.mem_flatMap] at h
        obtain ⟨x, -, hx⟩ := h
        have ns : ∀ n, n < 16 → Nat.digitChar n ≠ '\n' := by decide
        simp only [List.mem_cons, List.not_mem_nil, or_false] at hx
        have := x.toNat_lt
        rcases hx with hx | hx
        · exact ns _ (by omega) hx.symm
        · exact ns _ (by omega) hx.symm
    show hostnameRe.matchDollar (':' :: toHex b) = false
    unfold Re.matchDollar
    rw [hd]
    simp [hl]

example : NetAddr.new toyIp (.str ":00000000000000000000ffff7f000001".toList) = .ok ⟨.ipv4, [127, 0, 0, 1]⟩ := by decide +kernel
example : NetAddr.new toyIp (.str "example.org".toList) = .ok ⟨.hostname, utf8 "example.org".toList⟩ := by decide +kernel

/-! ## C76 -/

/-- **C76** (what holds). A host name can be copied and gives the same value. -/
theorem C76_copy_partial (L : IpLib) (a : NetAddr) (h : a.kind = .hostname) : NetAddr.new L (.net a) = .ok a := by
  simp [NetAddr.new, h]

example : NetAddr.new toyIp (.net ⟨.hostname, utf8 "example.org".toList⟩) = .ok ⟨.hostname, utf8 "example.org".toList⟩ := by decide +kernel

/-- **C76** (finding). No IP address and no bot name can be copied: `AttributeError`. -/
theorem C76_copy_false (L : IpLib) :
    (∀ a : NetAddr, a.kind ≠ .hostname → NetAddr.new L (.net a) = .error .attributeError) ∧
    (∀ n : BotName, BotName.new (.name n) = .error .attributeError) := by
  refine ⟨fun a h => ?_, fun n => rfl⟩
  obtain ⟨k, b⟩ := a
  cases k <;> simp_all [NetAddr.new]

end TF.Props
