import Verif.Spec.Url
import Verif.Spec.Explorer
import Verif.Props.Ip
import Verif.Props.ThreeBot
import Verif.Model.Connect
/-! # C133: where requests go -/
namespace TF.Props
open TF Spec

/-! ## Cutting texts -/

theorem cutAt_none {c : Char} {s : Str} (h : c ∉ s) : cutAt c s = (s, []) := by
  unfold cutAt
  have hp : ∀ x ∈ s, (x != c) = true := fun x hx => by simpa using fun e : x = c => h (e ▸ hx)
  have h1 : s.takeWhile (· != c) = s := by have := List.takeWhile_append_of_pos (l₂ := []) hp; simpa using this
  have h2 : s.dropWhile (· != c) = [] := by have := List.dropWhile_append_of_pos (l₂ := []) hp; simpa using this
  rw [h1, h2]; rfl

theorem takeWhile_cut {p : Char → Bool} {a r : Str} {x : Char} (ha : ∀ c ∈ a, p c = true) (hx : p x = false) :
    (a ++ x :: r).takeWhile p = a ∧ (a ++ x :: r).dropWhile p = x :: r := by
  constructor
  · rw [List.takeWhile_append_of_pos ha, List.takeWhile_cons, hx]; simp
  · rw [List.dropWhile_append_of_pos ha, List.dropWhile_cons, hx]; simp

theorem cutAt_at {c : Char} {a r : Str} (h : c ∉ a) : cutAt c (a ++ c :: r) = (a, r) := by
  obtain ⟨h1, h2⟩ := takeWhile_cut (p := (· != c)) (a := a) (r := r) (x := c) (fun x hx => by simpa using fun e : x = c => h (e ▸ hx)) (by simp)
  unfold cutAt
  rw [h1, h2]; rfl

theorem contains_false {c : Char} {s : Str} (h : c ∉ s) : s.contains c = false := by
  rw [Bool.eq_false_iff]
  intro e
  exact h (List.contains_iff_mem.1 e)

/-! ## Characters -/

theorem visible_notSpace {c : Char} (h : Visible c) : isPySpace c = false := by
  obtain ⟨h1, h2⟩ := h
  unfold isPySpace
  simp only [Bool.or_eq_false_iff, Bool.and_eq_false_iff, decide_eq_false_iff_not, beq_eq_false_iff_ne]
  omega

theorem ne_of_toNat {c d : Char} (h : c.toNat ≠ d.toNat) : c ≠ d := fun e => h (e ▸ rfl)

theorem clean_visible {s : Str} (h : ∀ c ∈ s, Visible c) : cleanUrl s = s := by
  unfold cleanUrl
  have h1 : s.dropWhile (fun c => decide (c.toNat ≤ 32)) = s := by
    cases s with
    | nil => rfl
    | cons a t =>
      rw [List.dropWhile_cons, if_neg]
      have := (h a (by simp)).1
      simp; omega
  rw [h1, List.filter_eq_self]
  intro c hc
  have := (h c hc).1
  have g1 : c ≠ '\t' := ne_of_toNat (by change c.toNat ≠ 9; omega)
  have g2 : c ≠ '\n' := ne_of_toNat (by change c.toNat ≠ 10; omega)
  have g3 : c ≠ '\r' := ne_of_toNat (by change c.toNat ≠ 13; omega)
  simp [g1, g2, g3]

theorem strip_visible {s : Str} (h : ∀ c ∈ s, Visible c) : strip s = s := by
  have key : ∀ t : Str, (∀ c ∈ t, Visible c) → t.dropWhile isPySpace = t := by
    intro t ht
    cases t with
    | nil => rfl
    | cons a t => rw [List.dropWhile_cons, visible_notSpace (ht a (by simp))]; simp
  unfold strip rstrip lstrip
  rw [key s h, key s.reverse (fun c hc => h c (List.mem_reverse.1 hc)), List.reverse_reverse]

/-- The scheme of a web address, in small or capital letters. -/
theorem scheme_cases {s scheme : Str} (hw : scheme = "http".toList ∨ scheme = "https".toList) (h : s.map Char.toLower = scheme) :
    s ≠ [] ∧ ∀ c ∈ s, isAlpha c = true := by
  have key : ∀ c : Char, isAlpha c.toLower = true → isAlpha c = true := by
    intro c hc
    unfold Char.toLower at hc
    split at hc
    · rename_i hu
      unfold isAlpha
      have h1 : 65 ≤ c.val ∧ c.val ≤ 90 := by simpa using hu
      simp only [Bool.or_eq_true, Bool.and_eq_true, decide_eq_true_eq]
      exact .inl ⟨h1.1, h1.2⟩
    · exact hc
  constructor
  · rintro rfl
    rcases hw with rfl | rfl <;> simp at h
  · intro c hc
    apply key
    have : c.toLower ∈ scheme := h ▸ List.mem_map_of_mem hc
    have hall : ∀ d ∈ scheme, isAlpha d = true := by
      rcases hw with rfl | rfl <;> decide
    exact hall _ this

theorem alpha_nat {c : Char} (h : isAlpha c = true) : (65 ≤ c.toNat ∧ c.toNat ≤ 90) ∨ (97 ≤ c.toNat ∧ c.toNat ≤ 122) := by
  unfold isAlpha at h
  simp only [Bool.or_eq_true, Bool.and_eq_true, decide_eq_true_eq] at h
  rcases h with h | h
  · exact .inl ⟨h.1, h.2⟩
  · exact .inr ⟨h.1, h.2⟩

/-! ## Hosts and paths -/

/-- The characters of an IPv6 address. -/
theorem v6_host {s : Str} {gs : List Nat} (h : V6Text s gs) : ∀ c ∈ s, (hexVal c).isSome ∨ c = ':' ∨ c = '.' := by
  have hg : ∀ {s : Str} {n : Nat}, GroupText s n → ∀ c ∈ s, (hexVal c).isSome ∨ c = ':' ∨ c = '.' := by
    rintro s n ⟨-, -, ds, hds, -⟩
    exact forall_mem (fun a b h => .inl (by rw [(hexVal_iff _ _).2 h]; rfl)) hds
  have ho : ∀ {s : Str} {n : Nat}, OctetText s n → ∀ c ∈ s, (hexVal c).isSome ∨ c = ':' ∨ c = '.' := by
    rintro s n ⟨-, hd, -⟩ c hc
    obtain ⟨h1, h2⟩ := hd c hc
    left
    have := (hexVal_iff c (c.toNat - '0'.toNat)).2 (.inl ⟨h1, h2, rfl⟩)
    rw [this]; rfl
  have hgs : ∀ {d : Bool} {s : Str} {ns : List Nat}, GroupsText d s ns → ∀ c ∈ s, (hexVal c).isSome ∨ c = ':' ∨ c = '.' := by
    intro d s ns h
    induction h with
    | one s n h => exact hg h
    | more s n t ns h _ ih =>
      intro c hc
      simp only [List.mem_append, List.mem_cons] at hc
      rcases hc with hc | rfl | hc
      exacts [hg h c hc, .inr (.inl rfl), ih c hc]
    | dotted s p q r t _ h =>
      obtain ⟨a, b, c', d', _, _, _, _, rfl, -, ha, hb, hc', hd'⟩ := h
      intro c hc
      simp only [List.mem_append, List.mem_cons] at hc
      rcases hc with hc | rfl | hc | rfl | hc | rfl | hc
      exacts [ho ha c hc, .inr (.inr rfl), ho hb c hc, .inr (.inr rfl), ho hc' c hc, .inr (.inr rfl), ho hd' c hc]
  cases h with
  | full _ _ h _ => exact hgs h
  | short l hi r lo hl hr _ =>
    intro c hc
    simp only [List.mem_append, List.mem_cons] at hc
    rcases hc with hc | rfl | rfl | hc
    · rcases hl with ⟨rfl, -⟩ | hl
      · simp at hc
      · exact hgs hl c hc
    · exact .inr (.inl rfl)
    · exact .inr (.inl rfl)
    · rcases hr with ⟨rfl, -⟩ | hr
      · simp at hc
      · exact hgs hr c hc

theorem v6_hostChar {s : Str} {gs : List Nat} (h : V6Text s gs) : ∀ c ∈ s, HostChar c := by
  intro c hc
  rcases v6_host h c hc with h | rfl | rfl
  · have key : ∀ d : Char, hexVal d = none → c ≠ d := by rintro d hd rfl; rw [hd] at h; simp at h
    refine ⟨?_, key _ (by decide), key _ (by decide), key _ (by decide), key _ (by decide), key _ (by decide), key _ (by decide)⟩
    unfold hexVal at h
    simp only at h
    constructor <;> (split at h; omega; split at h; omega; split at h; omega; simp at h)
  · refine ⟨by constructor <;> decide, ?_⟩; decide
  · refine ⟨by constructor <;> decide, ?_⟩; decide

theorem v6_parse {s : Str} {gs : List Nat} (h : V6Text s gs) : ∃ b, parseIp s = some b ∧ b.length = 16 := by
  refine ⟨groupBytes gs, (C129_text s _).2 (.inr ⟨s, gs, h, rfl, .inl rfl⟩), ?_⟩
  have h8 := (v6_chars h).2.2.1
  unfold groupBytes
  rw [List.length_flatten, List.map_map]
  have : (gs.map (List.length ∘ fun g => [UInt8.ofNat (g / 256), UInt8.ofNat (g % 256)])) = gs.map fun _ => 2 := rfl
  rw [this, List.map_const', h8]
  rfl

theorem hostChar_inNetloc {c : Char} (h : HostChar c) : inNetloc c = true := by
  obtain ⟨-, h1, h2, h3, -⟩ := h
  simp [TF.inNetloc, h1, h2, h3]

theorem host_chars {h : Str} (hh : IsHost h) : ∀ c ∈ h, Visible c ∧ inNetloc c = true ∧ c ≠ '#' ∧ c ≠ '%' := by
  have key : ∀ c, HostChar c → Visible c ∧ inNetloc c = true ∧ c ≠ '#' ∧ c ≠ '%' := fun c hc => ⟨hc.1, hostChar_inNetloc hc, hc.2.2.2.1, hc.2.2.2.2.2.2⟩
  cases hh with
  | name _ _ hc => exact fun c m => key c (hc c m)
  | ipv6 a gs port h6 hp =>
    have ha := v6_hostChar h6
    intro c m
    simp only [List.cons_append, List.mem_cons, List.mem_append] at m
    rcases m with rfl | m | rfl | m
    · exact ⟨by constructor <;> decide, by decide, by decide, by decide⟩
    · exact key c (ha c m)
    · exact ⟨by constructor <;> decide, by decide, by decide, by decide⟩
    · exact key c (hp c m)

theorem host_ne {h : Str} (hh : IsHost h) : h ≠ [] := by
  cases hh with
  | name _ hn _ => exact hn
  | ipv6 a gs port h6 hp => simp

theorem netloc_host (U : UrlLib) {h : Str} (hh : IsHost h) : netlocOk U h = true := by
  have hascii : h.all (fun c => decide (c.toNat < 128)) = true := by
    rw [List.all_eq_true]
    intro c hc
    have := (host_chars hh c hc).1.2
    simp; omega
  unfold netlocOk
  rw [hascii]
  cases hh with
  | name _ hn hc =>
    have h1 : '[' ∉ h := fun m => (hc _ m).2.2.2.2.1 rfl
    have h2 : ']' ∉ h := fun m => (hc _ m).2.2.2.2.2.1 rfl
    rw [contains_false h1, contains_false h2]
    rfl
  | ipv6 a gs port h6 hp =>
    have ha := v6_hostChar h6
    obtain ⟨b, hb, hl⟩ := v6_parse h6
    have h2 : ']' ∉ a := fun m => (ha _ m).2.2.2.2.2.1 rfl
    have c1 : ('[' :: a ++ ']' :: port).contains '[' = true := by simp
    have c2 : ('[' :: a ++ ']' :: port).contains ']' = true := by simp
    have e1 : cutAt '[' ('[' :: a ++ ']' :: port) = ([], a ++ ']' :: port) := cutAt_at (a := []) (by simp)
    have hv : bracketOk a = true := by
      unfold bracketOk
      split
      · rename_i r
        rcases v6_host h6 'v' (by simp) with h | h | h
        · exact absurd h (by decide)
        · exact absurd h (by decide)
        · exact absurd h (by decide)
      · rw [hb]; simp [hl]
    rw [c1, c2, e1, cutAt_at h2, hv]
    rfl

theorem path_none {p : Str} (hp : IsPath p) : '#' ∉ p ∧ '?' ∉ p ∧ ';' ∉ p :=
  ⟨fun m => (hp.2 _ m).2.2.1 rfl, fun m => (hp.2 _ m).2.1 rfl, fun m => (hp.2 _ m).2.2.2 rfl⟩

theorem splitParams_path {p : Str} (h : ';' ∉ p) : splitParams p = (p, []) := by
  unfold splitParams
  have hm : ∀ c ∈ (p.reverse.takeWhile (· != '/')).reverse, c ∈ p := fun c hc =>
    List.mem_reverse.1 ((List.takeWhile_subset _) (List.mem_reverse.1 hc))
  simp only
  rw [cutAt_none (fun m => h (hm _ m))]
  have : p.take (p.length - ((p.reverse.takeWhile (· != '/')).reverse).length) = (p.reverse.dropWhile (· != '/')).reverse := by
    have e : p = (p.reverse.dropWhile (· != '/')).reverse ++ (p.reverse.takeWhile (· != '/')).reverse := by
      rw [← List.reverse_append, List.takeWhile_append_dropWhile, List.reverse_reverse]
    have hl : p.length = (p.reverse.dropWhile (· != '/')).reverse.length + (p.reverse.takeWhile (· != '/')).reverse.length := by
      rw [← List.length_append, ← e]
    rw [hl, Nat.add_sub_cancel]
    exact (congrArg (List.take _) e).trans (List.take_left' rfl)
  rw [this, ← List.reverse_append, List.takeWhile_append_dropWhile, List.reverse_reverse]

theorem path_cases {p : Str} (hp : IsPath p) (hne : p ≠ []) : ∃ r, p = '/' :: r := by
  rcases hp.1 with h | h
  · exact absurd h hne
  · cases p with
    | nil => exact absurd rfl hne
    | cons a r =>
      simp at h
      exact ⟨r, by rw [h]⟩

/-! ## The URL -/

/-- What a URL of the usual form is taken apart into. -/
theorem urlparse_site (U : UrlLib) {s scheme h p : Str} (hw : scheme = "http".toList ∨ scheme = "https".toList) (hs : s.map Char.toLower = scheme)
    (hh : IsHost h) (hp : IsPath p) (hne : p ≠ []) :
    urlparse U (s ++ "://".toList ++ h ++ p) = .ok ⟨scheme, h, p, [], [], []⟩ ∧ ∀ c ∈ s ++ "://".toList ++ h ++ p, Visible c := by
  obtain ⟨hs0, hsa⟩ := scheme_cases hw hs
  obtain ⟨r, rfl⟩ := path_cases hp hne
  have hvis : ∀ c ∈ s ++ "://".toList ++ h ++ '/' :: r, Visible c := by
    intro c hc
    simp only [List.mem_append] at hc
    rcases hc with ((hc | hc) | hc) | hc
    · have := alpha_nat (hsa c hc)
      constructor <;> omega
    · have : ∀ c ∈ "://".toList, Visible c := by
        intro c hc
        have : c = ':' ∨ c = '/' := by simpa using hc
        rcases this with rfl | rfl <;> constructor <;> decide
      exact this c hc
    · exact (host_chars hh c hc).1
    · exact (hp.2 c hc).1
  refine ⟨?_, hvis⟩
  have e0 : s ++ "://".toList ++ h ++ '/' :: r = s ++ ':' :: ('/' :: '/' :: (h ++ '/' :: r)) := by simp
  have e1 : splitScheme (s ++ ':' :: ('/' :: '/' :: (h ++ '/' :: r))) = (scheme, '/' :: '/' :: (h ++ '/' :: r)) := by
    have hcol : ∀ c ∈ s, (c != ':') = true := by
      intro c hc
      have := alpha_nat (hsa c hc)
      have : c ≠ ':' := ne_of_toNat (by change c.toNat ≠ 58; omega)
      simpa using this
    obtain ⟨t1, -⟩ := takeWhile_cut (p := (· != ':')) (a := s) (x := ':') (r := '/' :: '/' :: (h ++ '/' :: r)) hcol (by simp)
    unfold splitScheme
    rw [t1]
    have c1 : (s ++ ':' :: ('/' :: '/' :: (h ++ '/' :: r))).contains ':' = true := by simp
    have c2 : s.head?.any isAlpha = true := by
      cases s with
      | nil => exact absurd rfl hs0
      | cons a t => simpa using hsa a (by simp)
    have c3 : s.all isSchemeChar = true := by
      rw [List.all_eq_true]
      intro c hc
      unfold isSchemeChar
      rw [hsa c hc]; rfl
    simp only [c1, c2, c3, Bool.and_self, if_true, hs]
    congr 1
    rw [← List.drop_drop, List.drop_left]
    rfl
  have e2 : splitNetloc ('/' :: '/' :: (h ++ '/' :: r)) = (h, '/' :: r) := by
    obtain ⟨t1, t2⟩ := takeWhile_cut (p := inNetloc) (a := h) (x := '/') (r := r) (fun c hc => (host_chars hh c hc).2.1) (by decide)
    unfold splitNetloc
    simp only [t1, t2]
  obtain ⟨n1, n2, n3⟩ := path_none hp
  have e3 : usesParams.contains scheme = true := by rcases hw with rfl | rfl <;> decide
  unfold urlparse
  rw [clean_visible hvis, e0]
  simp only [e1, e2, netloc_host U hh, if_true, cutAt_none n1, cutAt_none n2, e3, splitParams_path n3]

theorem unparse_site {scheme h p : Str} (hw : scheme = "http".toList ∨ scheme = "https".toList) (hh : IsHost h) (hp : IsPath p) (hne : p ≠ []) :
    urlunparse ⟨scheme, h, p, [], [], []⟩ = scheme ++ "://".toList ++ h ++ p := by
  obtain ⟨r, rfl⟩ := path_cases hp hne
  have hs : scheme ≠ [] := by rcases hw with rfl | rfl <;> decide
  have h0 := host_ne hh
  unfold urlunparse
  simp [hs, h0]

theorem request_site (U : UrlLib) {scheme h p : Str} (hw : scheme = "http".toList ∨ scheme = "https".toList) (hh : IsHost h) (hp : IsPath p) (hne : p ≠ []) :
    requestOf U (scheme ++ "://".toList ++ h ++ p) = .ok ⟨scheme, some h, p⟩ := by
  have hlow : scheme.map Char.toLower = scheme := by rcases hw with rfl | rfl <;> decide
  obtain ⟨hs0, hsa⟩ := scheme_cases hw hlow
  obtain ⟨hpar, hvis⟩ := urlparse_site U hw hlow hh hp hne
  obtain ⟨r, rfl⟩ := path_cases hp hne
  have hu : unwrapUrl (scheme ++ "://".toList ++ h ++ '/' :: r) = scheme ++ "://".toList ++ h ++ '/' :: r := by
    unfold unwrapUrl
    simp only [strip_visible hvis]
    have h1 : (scheme ++ "://".toList ++ h ++ '/' :: r).head? ≠ some '<' := by rcases hw with rfl | rfl <;> simp
    have h2 : "URL:".toList.isPrefixOf (scheme ++ "://".toList ++ h ++ '/' :: r) = false := by rcases hw with rfl | rfl <;> rfl
    simp only [h1, false_and, if_false, h2, Bool.false_eq_true]
  have hn : '#' ∉ scheme ++ "://".toList ++ h ++ '/' :: r := by
    intro m
    simp only [List.mem_append] at m
    rcases m with ((m | m) | m) | m
    · have := alpha_nat (hsa _ m)
      revert this; decide
    · revert m; decide
    · exact (host_chars hh _ m).2.2.1 rfl
    · exact (path_none hp).1 m
  unfold requestOf
  simp only [hu, contains_false hn, Bool.false_eq_true, if_false, hpar]
  have e0 : scheme ++ "://".toList ++ h ++ '/' :: r = scheme ++ ':' :: ('/' :: '/' :: (h ++ '/' :: r)) := by simp
  have hcol : ∀ c ∈ scheme, (!(c == '/' || c == ':')) = true := by
    intro c hc
    have := alpha_nat (hsa c hc)
    have g1 : c ≠ ':' := ne_of_toNat (by change c.toNat ≠ 58; omega)
    have g2 : c ≠ '/' := ne_of_toNat (by change c.toNat ≠ 47; omega)
    simp [g1, g2]
  obtain ⟨t1, -⟩ := takeWhile_cut (p := fun c => !(c == '/' || c == ':')) (a := scheme) (x := ':') (r := '/' :: '/' :: (h ++ '/' :: r)) hcol (by simp)
  obtain ⟨t3, t4⟩ := takeWhile_cut (p := inNetloc) (a := h) (x := '/') (r := r) (fun c hc => (host_chars hh c hc).2.1) (by decide)
  have hper : '%' ∉ h := fun m => (host_chars hh _ m).2.2.2 rfl
  have hreq : parseRequest U (scheme ++ "://".toList ++ h ++ '/' :: r) = .ok ⟨scheme, some h, '/' :: r⟩ := by
    unfold parseRequest
    rw [e0]
    simp only [t1, List.drop_left, if_neg hs0, t3, t4, contains_false hper, hlow]
    simp
  rw [hreq]
  rfl

theorem requestTarget_site (U : UrlLib) {s h p : Str} (hw : s.map Char.toLower = "http".toList ∨ s.map Char.toLower = "https".toList)
    (hh : IsHost h) (hp : IsPath p) (hne : p ≠ []) : requestTarget U (s ++ "://".toList ++ h ++ p) = .ok ⟨s.map Char.toLower, some h, p⟩ := by
  unfold requestTarget updateUrl
  rw [(urlparse_site U hw rfl hh hp hne).1]
  simp only [bind, Except.bind, pure, Except.pure, if_true, unparse_site hw hh hp hne, request_site U hw hh hp hne]

theorem path_append {p e : Str} (hp : IsPath p) (he : GoodEndpoint e) : IsPath (p ++ e) ∧ p ++ e ≠ [] := by
  obtain ⟨he, hne⟩ := he
  refine ⟨⟨.inr ?_, fun c hc => ?_⟩, by simp [hne]⟩
  · obtain ⟨r, rfl⟩ := path_cases he hne
    rcases hp.1 with rfl | h
    · rfl
    · cases p with
      | nil => rfl
      | cons a t => simpa using h
  · rcases List.mem_append.1 hc with h | h
    exacts [hp.2 c h, he.2 c h]

/-! ## C133 -/

/-- **C133** (requests). The request for an endpoint of an explorer goes to the host of the explorer's address, over http or https as it says, for the path
of the address followed by the endpoint: nothing is added, dropped, escaped or reordered. -/
theorem C133_request (U : UrlLib) (s : Site) (hs : s.Good) (e : Str) (he : GoodEndpoint e) : requestTarget U (s.text ++ e) = .ok (s.asked e) := by
  obtain ⟨h1, h2⟩ := path_append hs.path he
  have : s.text ++ e = s.scheme ++ "://".toList ++ s.host ++ (s.path ++ e) := by unfold Site.text; simp
  rw [this]
  exact requestTarget_site U hs.scheme hs.host h1 h2

theorem askUrl_site (U : UrlLib) (net : Target → Reply) (s : Site) (hs : s.Good) (e : Str) (he : GoodEndpoint e) :
    askUrl U net (s.text ++ e) = net (s.asked e) := by
  unfold askUrl
  rw [C133_request U s hs e he]

/-- **C133** (the answer of an explorer). The client returns what the first explorer that can be reached answers to that request. -/
theorem C133_first (U : UrlLib) (decode : Bytes → Option Str) (net : Target → Reply) (before : List Site) (s : Site) (after : List Site) (e : Str)
    (he : GoodEndpoint e) (hb : ∀ x ∈ before, x.Good ∧ net (x.asked e) = .unreachable) (hs : s.Good) (line : Bytes) (ha : net (s.asked e) = .answer 200 line) :
    explorerGet decode (fun a => askUrl U net (a ++ e)) ((before ++ s :: after).map fun x => some x.text) = .ok line := by
  induction before with
  | nil =>
    simp only [List.nil_append, List.map_cons, explorerGet, askUrl_site U net s hs e he, ha]
    rfl
  | cons b r ih =>
    have hb0 := hb b (by simp)
    simp only [List.cons_append, List.map_cons, explorerGet, askUrl_site U net b hb0.1 e he, hb0.2]
    exact ih fun x hx => hb x (by simp [hx])

/-- **C133** (different requests). Requests for different endpoints, or to explorers with different hosts, are different. -/
theorem C133_apart (U : UrlLib) (s t : Site) (hs : s.Good) (ht : t.Good) (e f : Str) (he : GoodEndpoint e) (hf : GoodEndpoint f)
    (h : requestTarget U (s.text ++ e) = requestTarget U (t.text ++ f)) : s.host = t.host ∧ s.path ++ e = t.path ++ f := by
  rw [C133_request U s hs e he, C133_request U t ht f hf] at h
  have := Except.ok.inj h
  unfold Site.asked at this
  injection this with _ h2 h3
  exact ⟨Option.some.inj h2, h3⟩

instance (c : Char) : Decidable (Visible c) := by unfold Visible; infer_instance
instance (c : Char) : Decidable (PathChar c) := by unfold PathChar; infer_instance
instance (c : Char) : Decidable (HostChar c) := by unfold HostChar; infer_instance
instance (p : Str) : Decidable (IsPath p) := by unfold IsPath; infer_instance
instance (p : Str) : Decidable (GoodEndpoint p) := by unfold GoodEndpoint; infer_instance

/-- An explorer behind a path, and one with an IPv6 address. -/
def site1 : Site := ⟨"HTTPS".toList, "explorer.example.org:8080".toList, "/tft".toList⟩
@[inherit_doc site1]
def site2 : Site := ⟨"http".toList, "[::1]:23110".toList, []⟩

theorem site1_good : site1.Good := ⟨by decide, .name _ (by decide) (by decide), by decide⟩

theorem site2_good : site2.Good :=
  ⟨by decide, .ipv6 "::1".toList ([] ++ List.replicate 7 0 ++ [1]) ":23110".toList
    (.short [] [] "1".toList [1] (.inl ⟨rfl, rfl⟩) (.inr (.one _ _ ⟨by decide, by decide, [1], .cons (.inl ⟨by decide, by decide, by decide⟩) .nil, rfl⟩)) (by decide)) (by decide), by decide⟩

example : site1.text = "HTTPS://explorer.example.org:8080/tft".toList ∧ site2.text = "http://[::1]:23110".toList := by decide +kernel

example : GoodEndpoint "/explorer".toList ∧ GoodEndpoint "/explorer/constants".toList ∧ GoodEndpoint poolEndpoint ∧ GoodEndpoint "/explorer/mintcondition".toList := by
  decide +kernel

example (U : UrlLib) : requestTarget U "HTTPS://explorer.example.org:8080/tft/explorer/constants".toList =
    .ok ⟨"https".toList, some "explorer.example.org:8080".toList, "/tft/explorer/constants".toList⟩ :=
  C133_request U site1 site1_good "/explorer/constants".toList (by decide +kernel)

/-! ### The endpoints of the library -/

theorem toHex_path (b : Bytes) : ∀ c ∈ toHex b, PathChar c := by
  intro c hc
  simp only [toHex, List.mem_flatMap] at hc
  obtain ⟨x, -, hx⟩ := hc
  simp only [List.mem_cons, List.not_mem_nil, or_false] at hx
  have key : ∀ n : Fin 16, PathChar (Nat.digitChar n.val) := by decide
  rcases hx with rfl | rfl
  · exact key ⟨x.toNat / 16, by have := x.toNat_lt; omega⟩
  · exact key ⟨x.toNat % 16, by omega⟩

theorem hash_path (h : Hash) : ∀ c ∈ h.str, PathChar c := by
  unfold Hash.str
  simp only
  split
  · intro c hc
    rw [List.eq_of_mem_replicate hc]
    decide
  · exact toHex_path _

theorem address_path (H : Bytes → Bytes) (u : UnlockHash) : ∀ c ∈ u.str H, PathChar c := by
  unfold UnlockHash.str
  intro c hc
  simp only [List.mem_append] at hc
  rcases hc with (hc | hc) | hc
  exacts [toHex_path _ c hc, hash_path _ c hc, toHex_path _ c hc]

theorem int_path (i : Int) : ∀ c ∈ intStr i, PathChar c := by
  have hn : ∀ n c, c ∈ natStr n → PathChar c := by
    intro n c hc
    have h := natStr_digits n c hc
    unfold isDig at h
    simp only [Bool.and_eq_true, decide_eq_true_eq] at h
    have h1 : 48 ≤ c.toNat := h.1
    have h2 : c.toNat ≤ 57 := h.2
    exact ⟨⟨by omega, by omega⟩, ne_of_toNat (by change c.toNat ≠ 63; omega), ne_of_toNat (by change c.toNat ≠ 35; omega),
      ne_of_toNat (by change c.toNat ≠ 59; omega)⟩
  unfold intStr
  split
  · intro c hc
    rcases List.mem_cons.1 hc with rfl | hc
    · decide
    · exact hn _ c hc
  · exact hn _

theorem key_path (k : PublicKey) : ∀ c ∈ k.str, PathChar c := by
  unfold PublicKey.str
  intro c hc
  rcases List.mem_append.1 hc with hc | hc
  · have : ∀ s : KeySpec, ∀ c ∈ s.str, PathChar c := by intro s; cases s <;> decide
    exact this _ c hc
  · rcases List.mem_cons.1 hc with rfl | hc
    · decide
    · exact hash_path _ c hc

/-- **C133** (names). Every well-formed 3Bot name can be part of an endpoint. -/
theorem C133_names (s : Str) (h : GoodName s) : ∀ c ∈ s, PathChar c := by
  have hl : ∀ c : Char, IsLetter c ∨ IsDigit c ∨ c = '-' → PathChar c := by
    rintro c ((h | h) | h | rfl)
    · have h1 : 65 ≤ c.toNat := h.1
      have h2 : c.toNat ≤ 90 := h.2
      exact ⟨⟨by omega, by omega⟩, ne_of_toNat (by change c.toNat ≠ 63; omega), ne_of_toNat (by change c.toNat ≠ 35; omega),
        ne_of_toNat (by change c.toNat ≠ 59; omega)⟩
    · have h1 : 97 ≤ c.toNat := h.1
      have h2 : c.toNat ≤ 122 := h.2
      exact ⟨⟨by omega, by omega⟩, ne_of_toNat (by change c.toNat ≠ 63; omega), ne_of_toNat (by change c.toNat ≠ 35; omega),
        ne_of_toNat (by change c.toNat ≠ 59; omega)⟩
    · have h1 : 48 ≤ c.toNat := h.1
      have h2 : c.toNat ≤ 57 := h.2
      exact ⟨⟨by omega, by omega⟩, ne_of_toNat (by change c.toNat ≠ 63; omega), ne_of_toNat (by change c.toNat ≠ 35; omega),
        ne_of_toNat (by change c.toNat ≠ 59; omega)⟩
    · decide
  obtain ⟨-, g, gs, hg, hgs, rfl⟩ := h
  intro c hc
  rcases List.mem_append.1 hc with hc | hc
  · exact hl c (hg.2.2.2 c hc)
  · obtain ⟨x, hx, hc⟩ := List.mem_flatMap.1 hc
    rcases List.mem_cons.1 hc with rfl | hc
    · decide
    · exact hl c ((hgs x hx).2.2.2 c hc)

theorem endpoint_good {a s : Str} (ha : GoodEndpoint a) (hs : ∀ c ∈ s, PathChar c) : GoodEndpoint (a ++ s) := by
  obtain ⟨⟨h1, h2⟩, hne⟩ := ha
  obtain ⟨r, rfl⟩ := path_cases ⟨h1, h2⟩ hne
  refine ⟨⟨.inr rfl, fun c hc => ?_⟩, by simp⟩
  rcases List.mem_append.1 hc with hc | hc
  exacts [h2 c hc, hs c hc]

theorem hashes_good {s : Str} (hs : ∀ c ∈ s, PathChar c) : GoodEndpoint (hashesEndpoint s) := endpoint_good (by decide +kernel) hs

/-- **C133** (the endpoints of the library). Blocks, transactions, outputs, addresses, mint conditions, the state of the chain, ERC20 registrations and 3Bots
are asked for at such endpoints only: if two worlds answer alike there, the client finds the same in both. -/
theorem C133_endpoints (C : Client) (get : Str → Res Json) (h : AgreeAtGood C get) :
    (∀ b, C.blockGet b = ({ C with get := get } : Client).blockGet b) ∧
    (∀ i, C.transactionGet i = ({ C with get := get } : Client).transactionGet i) ∧
    (∀ i, C.coinOutputGet i = ({ C with get := get } : Client).coinOutputGet i) ∧
    (∀ i, C.stakeOutputGet i = ({ C with get := get } : Client).stakeOutputGet i) ∧
    (∀ r, C.unlockhashGet r = ({ C with get := get } : Client).unlockhashGet r) ∧
    (∀ n, C.mintConditionGet n = ({ C with get := get } : Client).mintConditionGet n) ∧
    (∀ a, C.erc20Get a = ({ C with get := get } : Client).erc20Get a) ∧
    C.infoGet = ({ C with get := get } : Client).infoGet ∧
    (∀ b, PlainBot b → C.recordGet b = ({ C with get := get } : Client).recordGet b) := by
  have hblock : ∀ b, C.blockGet b = ({ C with get := get } : Client).blockGet b := by
    intro b
    unfold Client.blockGet
    cases b with
    | height i => simp only [h _ (endpoint_good (show GoodEndpoint "/explorer/blocks/".toList by decide +kernel) (int_path i))]
    | id v =>
      simp only
      cases hv : Hash.new v with
      | error e => rfl
      | ok i => simp only [bind, Except.bind, h _ (hashes_good (hash_path i))]
  refine ⟨hblock, ?_, ?_, ?_, ?_, ?_, ?_, ?_, ?_⟩
  · intro v
    unfold Client.transactionGet
    cases hv : Hash.new v with
    | error e => rfl
    | ok i => simp only [bind, Except.bind, h _ (hashes_good (hash_path i))]
  · intro v
    unfold Client.coinOutputGet
    cases hv : Hash.new v with
    | error e => rfl
    | ok i => simp only [bind, Except.bind, h _ (hashes_good (hash_path i))]
  · intro v
    unfold Client.stakeOutputGet
    cases hv : Hash.new v with
    | error e => rfl
    | ok i => simp only [bind, Except.bind, h _ (hashes_good (hash_path i))]
  · intro r
    unfold Client.unlockhashGet
    cases hc : fromRecipient C.H r .none with
    | error e => rfl
    | ok c =>
      cases hu : c.unlockhash C.H with
      | error e => simp only [bind, Except.bind, hu]
      | ok u => simp only [bind, Except.bind, hu, h _ (hashes_good (address_path C.H u))]
  · intro n
    unfold Client.mintConditionGet
    cases n with
    | none => simp only [h _ (show GoodEndpoint "/explorer/mintcondition".toList by decide +kernel)]
    | some i => simp only [h _ (endpoint_good (show GoodEndpoint "/explorer/mintcondition/".toList by decide +kernel) (int_path i))]
  · intro a
    unfold Client.erc20Get
    cases hu : a.resolve C.H with
    | error e => rfl
    | ok u => simp only [bind, Except.bind, h _ (hashes_good (address_path C.H u))]
  · unfold Client.infoGet
    rw [h _ (by decide +kernel)]
    simp only [hblock]
  · intro b hb
    unfold Client.recordGet
    cases hep : b.endpoint with
    | error e => rfl
    | ok ep =>
      have hgood : GoodEndpoint ep := by
        cases b with
        | int i => cases hep; exact endpoint_good (by decide +kernel) (int_path i)
        | name n => cases hep; exact endpoint_good (by decide +kernel) (C133_names _ hb)
        | key k => cases hep; exact endpoint_good (by decide +kernel) (key_path k)
        | str s =>
          unfold BotArg.endpoint at hep
          simp only at hep
          split at hep
          · cases hep; exact endpoint_good (by decide +kernel) hb
          · split at hep
            · cases hep; exact endpoint_good (by decide +kernel) hb
            · cases hep
        | other => cases hep
      simp only [bind, Except.bind, h _ hgood]

example : AgreeAtGood ⟨⟨parseIp, printIp⟩, fun _ => [], fun e => if e = "/explorer?x".toList then .ok .null else .error .explorerNoContent⟩
    (fun _ => .error .explorerNoContent) := by
  intro e he
  refine if_neg ?_
  rintro rfl
  revert he
  decide +kernel

/-- **C133** (submissions). Transactions are posted to the path of the address followed by `/transactionpool/transactions`. -/
theorem C133_submission (U : UrlLib) (net : Target → Reply) (s : Site) (hs : s.Good) :
    askUrl U net (s.text ++ poolEndpoint) = net ⟨s.scheme.map Char.toLower, some s.host, s.path ++ "/transactionpool/transactions".toList⟩ :=
  askUrl_site U net s hs poolEndpoint (by decide +kernel)

example : site2.Good := site2_good

/-- **C133** (no scheme). For an address without `http://` or `https://`, such as `explorer.example.org`, every request raises `ValueError`, whatever other
explorers there are. -/
theorem C133_no_scheme (U : UrlLib) (decode : Bytes → Option Str) (net : Target → Reply) (host : Str) (h0 : host ≠ [])
    (hh : ∀ c ∈ host, IsLetter c ∨ IsDigit c ∨ c = '-' ∨ c = '.') (e : Str) (he : GoodEndpoint e) (rest : List Address) :
    explorerGet decode (fun a => askUrl U net (a ++ e)) (some host :: rest) = .error .valueError := by
  obtain ⟨hp, hne⟩ := he
  obtain ⟨r, rfl⟩ := path_cases hp hne
  have hpc : ∀ c ∈ host, PathChar c ∧ c ≠ '/' ∧ c ≠ ':' ∧ c ≠ '<' ∧ c ≠ '[' ∧ c ≠ ']' := by
    intro c hc
    have hn : (48 ≤ c.toNat ∧ c.toNat ≤ 57) ∨ (65 ≤ c.toNat ∧ c.toNat ≤ 90) ∨ (97 ≤ c.toNat ∧ c.toNat ≤ 122) ∨ c.toNat = 45 ∨ c.toNat = 46 := by
      rcases hh c hc with (h | h) | h | rfl | rfl
      · exact .inr (.inl ⟨h.1, h.2⟩)
      · exact .inr (.inr (.inl ⟨h.1, h.2⟩))
      · exact .inl ⟨h.1, h.2⟩
      · decide
      · decide
    have key : ∀ d : Char, (d = '?' ∨ d = '#' ∨ d = ';' ∨ d = '/' ∨ d = ':' ∨ d = '<' ∨ d = '[' ∨ d = ']') → c ≠ d := by
      rintro d hd rfl
      rcases hd with rfl | rfl | rfl | rfl | rfl | rfl | rfl | rfl <;> exact absurd hn (by decide)
    exact ⟨⟨⟨by omega, by omega⟩, key _ (by simp), key _ (by simp), key _ (by simp)⟩, key _ (by simp), key _ (by simp), key _ (by simp), key _ (by simp), key _ (by simp)⟩
  have hall : ∀ c ∈ host ++ '/' :: r, PathChar c := by
    intro c hcm
    rcases List.mem_append.1 hcm with h | h
    exacts [(hpc c h).1, hp.2 c h]
  have hvis : ∀ c ∈ host ++ '/' :: r, Visible c := fun c hc => (hall c hc).1
  have e1 : splitScheme (host ++ '/' :: r) = ([], host ++ '/' :: r) := by
    have hcol : ∀ c ∈ host, (c != ':') = true := fun x hx => by simpa using (hpc x hx).2.2.1
    unfold splitScheme
    simp only
    rw [if_neg]
    rw [List.takeWhile_append_of_pos hcol, List.takeWhile_cons]
    simp only [Bool.and_eq_true, List.all_eq_true, not_and]
    intro _ h
    exact absurd (h '/' (by simp)) (by decide)
  obtain ⟨a, t, rfl⟩ : ∃ a t, host = a :: t := by
    cases host with
    | nil => exact absurd rfl h0
    | cons a t => exact ⟨a, t, rfl⟩
  have ha := hpc a (by simp)
  have e2 : splitNetloc (a :: t ++ '/' :: r) = ([], a :: t ++ '/' :: r) := by
    unfold splitNetloc
    split
    · rename_i h
      simp at h
      exact absurd h.1 ha.2.1
    · rfl
  have n1 : '#' ∉ a :: t ++ '/' :: r := fun m => (hall _ m).2.2.1 rfl
  have n2 : '?' ∉ a :: t ++ '/' :: r := fun m => (hall _ m).2.1 rfl
  have n3 : ';' ∉ a :: t ++ '/' :: r := fun m => (hall _ m).2.2.2 rfl
  have hparse : urlparse U (a :: t ++ '/' :: r) = .ok ⟨[], [], a :: t ++ '/' :: r, [], [], []⟩ := by
    have hn : netlocOk U [] = true := rfl
    have hu : usesParams.contains [] = true := by decide
    unfold urlparse
    rw [clean_visible hvis]
    simp only [e1, e2, hn, if_true, cutAt_none n1, cutAt_none n2, hu, splitParams_path n3]
  have hun : urlunparse ⟨[], [], a :: t ++ '/' :: r, [], [], []⟩ = a :: t ++ '/' :: r := by
    have hpre : "//".toList.isPrefixOf (a :: t ++ '/' :: r) = false := by
      show (('/' == a) && _) = false
      have : ('/' == a) = false := by simpa using fun e : '/' = a => ha.2.1 e.symm
      rw [this]; rfl
    unfold urlunparse
    simp only [if_true, hpre]
    simp
  have hurl : "URL:".toList.isPrefixOf (a :: t ++ '/' :: r) = false := by
    rw [Bool.eq_false_iff]
    intro h
    obtain ⟨z, hz⟩ := List.isPrefixOf_iff_prefix.1 h
    have hz : 'U' :: 'R' :: 'L' :: ':' :: z = a :: t ++ '/' :: r := hz
    rcases t with _ | ⟨b, _ | ⟨c, _ | ⟨d, t⟩⟩⟩ <;> simp at hz
    exact (hpc d (by simp)).2.2.1 hz.2.2.2.1.symm
  have hreq : requestOf U (a :: t ++ '/' :: r) = .error .valueError := by
    have hu : unwrapUrl (a :: t ++ '/' :: r) = a :: t ++ '/' :: r := by
      unfold unwrapUrl
      have h1 : (a :: t ++ '/' :: r).head? ≠ some '<' := by simpa using ha.2.2.2.1
      simp only [strip_visible hvis, h1, false_and, if_false, hurl, Bool.false_eq_true]
    have hpre : parseRequest U (a :: t ++ '/' :: r) = .error .valueError := by
      obtain ⟨t1, -⟩ := takeWhile_cut (p := fun c => !(c == '/' || c == ':')) (a := a :: t) (x := '/') (r := r)
        (fun c hc => by simp [(hpc c hc).2.1, (hpc c hc).2.2.1]) (by simp)
      unfold parseRequest
      simp only [t1, List.drop_left]
      rfl
    unfold requestOf
    simp only [hu, contains_false n1, Bool.false_eq_true, if_false, hpre]
    rfl
  have : askUrl U net (a :: t ++ '/' :: r) = .badUrl := by
    unfold askUrl requestTarget updateUrl
    rw [hparse]
    simp only [bind, Except.bind, pure, Except.pure, if_true, hun, hreq]
  simp only [explorerGet, this]

example : ∀ c ∈ "explorer.example.org".toList, IsLetter c ∨ IsDigit c ∨ c = '-' ∨ c = '.' := by
  unfold IsLetter IsDigit; decide

end TF.Props
