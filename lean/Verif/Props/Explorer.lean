import Verif.Spec.Explorer
/-! # C60, C93: failover between explorers -/
namespace TF.Props
open TF TF.Spec

theorem strContains_iff (sub s : Str) : strContains sub s = true ↔ ∃ pre post, s = pre ++ sub ++ post := by
  induction s with
  | nil =>
    simp only [strContains, List.isEmpty_iff]
    constructor
    · intro h; exact ⟨[], [], by simp [h]⟩
    · rintro ⟨pre, post, h⟩
      have := congrArg List.length h
      simp only [List.length_nil, List.length_append] at this
      exact List.length_eq_zero_iff.mp (by omega)
  | cons c s ih =>
    simp only [strContains, Bool.or_eq_true, ih, List.isPrefixOf_iff_prefix]
    constructor
    · rintro (⟨post, h⟩ | ⟨pre, post, h⟩)
      · exact ⟨[], post, by simpa using h.symm⟩
      · exact ⟨c :: pre, post, by simp [h]⟩
    · rintro ⟨pre, post, h⟩
      match pre with
      | [] => exact Or.inl ⟨post, by simpa using h.symm⟩
      | d :: pre =>
        simp only [List.cons_append, List.cons.injEq] at h
        exact Or.inr ⟨pre, post, h.2⟩

/-- The result of `get` when the first reachable explorer gives this reply. -/
theorem get_first {decode : Bytes → Option Str} {ask : Str → Reply} {before after : List Address} {a : Str}
    (hb : ∀ x ∈ before, Unreachable ask x) (ha : ask a ≠ .unreachable) :
    explorerGet decode ask (before ++ some a :: after) = explorerGet decode ask [some a] := by
  induction before with
  | nil =>
    simp only [List.nil_append, explorerGet]
    cases h : ask a <;> simp_all
  | cons x before ih =>
    obtain ⟨s, rfl, hs⟩ := hb x List.mem_cons_self
    simp only [List.cons_append, explorerGet, hs]
    exact ih fun y hy => hb y (List.mem_cons_of_mem _ hy)

/-- Either every explorer is unreachable, or there is a first reachable one, or an address that is not text comes first. -/
theorem order_cases (ask : Str → Reply) (order : List Address) :
    (∀ x ∈ order, Unreachable ask x) ∨ (∃ a, FirstReachable ask order a) ∨
      ∃ before after, order = before ++ none :: after ∧ ∀ x ∈ before, Unreachable ask x := by
  induction order with
  | nil => exact Or.inl (by simp)
  | cons x order ih =>
    match x with
    | none => exact Or.inr (Or.inr ⟨[], order, rfl, by simp⟩)
    | some a =>
      by_cases ha : ask a = .unreachable
      · have hx : Unreachable ask (some a) := ⟨a, rfl, ha⟩
        rcases ih with h | ⟨b, before, after, h1, h2, h3⟩ | ⟨before, after, h1, h2⟩
        · exact Or.inl (List.forall_mem_cons.mpr ⟨hx, h⟩)
        · exact Or.inr (Or.inl ⟨b, some a :: before, after, by simp [h1], List.forall_mem_cons.mpr ⟨hx, h2⟩, h3⟩)
        · exact Or.inr (Or.inr ⟨some a :: before, after, by simp [h1], List.forall_mem_cons.mpr ⟨hx, h2⟩⟩)
      · exact Or.inr (Or.inl ⟨a, [], order, rfl, by simp, ha⟩)

theorem get_none_first {decode : Bytes → Option Str} {ask : Str → Reply} {before after : List Address}
    (hb : ∀ x ∈ before, Unreachable ask x) : explorerGet decode ask (before ++ none :: after) = .error .typeError := by
  induction before with
  | nil => rfl
  | cons x before ih =>
    obtain ⟨s, rfl, hs⟩ := hb x List.mem_cons_self
    simp only [List.cons_append, explorerGet, hs]
    exact ih fun y hy => hb y (List.mem_cons_of_mem _ hy)

theorem get_all_unreachable {decode : Bytes → Option Str} {ask : Str → Reply} {order : List Address}
    (hb : ∀ x ∈ order, Unreachable ask x) : explorerGet decode ask order = .error .explorerNotAvailable := by
  induction order with
  | nil => rfl
  | cons x before ih =>
    obtain ⟨s, rfl, hs⟩ := hb x List.mem_cons_self
    simp only [explorerGet, hs]
    exact ih fun y hy => hb y (List.mem_cons_of_mem _ hy)

theorem refused_spec (decode : Bytes → Option Str) (code : Nat) (body : Bytes) :
    (refusedGet decode code body = .explorerNoContent ↔ SaysNoContent decode (.refused code body)) ∧
    (refusedGet decode code body = .explorerServerError ↔ SaysError decode (.refused code body)) ∧
    refusedGet decode code body ≠ .explorerNotAvailable := by
  unfold refusedGet
  by_cases h4 : code = 400
  · rw [if_pos h4]
    cases hd : decode body with
    | none =>
      refine ⟨⟨fun h => (by cases h), ?_⟩, ⟨fun h => (by cases h), ?_⟩, fun h => by cases h⟩
      · rintro ⟨_, s, hs, _⟩; rw [hd] at hs; cases hs
      · rintro ⟨h | ⟨s, hs⟩, _⟩
        · exact absurd h4 h
        · rw [hd] at hs; cases hs
    | some s =>
      have hn : SaysNoContent decode (.refused code body) ↔
          saysNothing s = true := by
        rw [saysNothing, Bool.or_eq_true, strContains_iff, strContains_iff]
        constructor
        · rintro ⟨_, s', hs', h⟩; rw [hd] at hs'; cases hs'; exact h
        · intro h; exact ⟨h4, s, hd, h⟩
      have he : SaysError decode (.refused code body) ↔ ¬ SaysNoContent decode (.refused code body) :=
        ⟨fun h => h.2, fun h => ⟨Or.inr ⟨s, hd⟩, h⟩⟩
      rw [he, hn]
      cases hs : saysNothing s <;> simp [hs]
  · rw [if_neg h4]
    have hn : ¬ SaysNoContent decode (.refused code body) := fun h => h4 h.1
    exact ⟨⟨fun h => (by cases h), fun h => absurd h hn⟩, ⟨fun _ => ⟨Or.inl h4, hn⟩, fun _ => rfl⟩, fun h => by cases h⟩

/-- What one reachable explorer's reply makes of a `get`. -/
theorem get_one (decode : Bytes → Option Str) (ask : Str → Reply) (a : Str) (ha : ask a ≠ .unreachable) :
    (∀ line, explorerGet decode ask [some a] = .ok line ↔ ask a = .answer 200 line) ∧
    (explorerGet decode ask [some a] = .error .explorerNoContent ↔ SaysNoContent decode (ask a)) ∧
    (explorerGet decode ask [some a] = .error .explorerServerError ↔ SaysError decode (ask a)) ∧
    explorerGet decode ask [some a] ≠ .error .explorerNotAvailable := by
  simp only [explorerGet]
  cases h : ask a with
  | unreachable => exact absurd h ha
  | badUrl => simp [SaysNoContent, SaysError]
  | answer code line =>
    simp only [SaysNoContent, SaysError, okCodes]
    by_cases h0 : code = 200
    · subst h0; simp [eq_comm]
    · by_cases h1 : code = 201
      · subst h1; simp
      · by_cases h2 : code = 204
        · subst h2; simp
        · simp [h0, h1, h2]
  | refused code body =>
    obtain ⟨r1, r2, r3⟩ := refused_spec decode code body
    simp only
    exact ⟨fun line => ⟨fun h => (by cases h), fun h => (by cases h)⟩,
      ⟨fun h => r1.1 (Except.error.inj h), fun h => by rw [r1.2 h]⟩, ⟨fun h => r2.1 (Except.error.inj h), fun h => by rw [r2.2 h]⟩,
      fun h => r3 (Except.error.inj h)⟩

/-- **C60**: `get` returns exactly the answer of the first reachable explorer, when that is a 200 answer. -/
theorem C60_get_answer (decode : Bytes → Option Str) (ask : Str → Reply) (order : List Address) (line : Bytes) :
    explorerGet decode ask order = .ok line ↔ ∃ a, FirstReachable ask order a ∧ ask a = .answer 200 line := by
  constructor
  · intro h
    rcases order_cases ask order with hu | ⟨a, ha⟩ | ⟨before, after, rfl, hb⟩
    · rw [get_all_unreachable hu] at h; cases h
    · obtain ⟨before, after, rfl, hb, hr⟩ := ha
      rw [get_first hb hr] at h
      exact ⟨a, ⟨before, after, rfl, hb, hr⟩, ((get_one decode ask a hr).1 line).1 h⟩
    · rw [get_none_first hb] at h; cases h
  · rintro ⟨a, ⟨before, after, rfl, hb, hr⟩, h⟩
    rw [get_first hb hr]
    exact ((get_one decode ask a hr).1 line).2 h

/-- **C60**: `get` raises `ExplorerNotAvailable` exactly when no explorer is reachable, in whatever order they are tried. -/
theorem C60_get_unavailable (decode : Bytes → Option Str) (ask : Str → Reply) (addresses order : List Address) (hp : order.Perm addresses) :
    explorerGet decode ask order = .error .explorerNotAvailable ↔ ∀ x ∈ addresses, Unreachable ask x := by
  rw [show (∀ x ∈ addresses, Unreachable ask x) ↔ ∀ x ∈ order, Unreachable ask x from
    ⟨fun h x hx => h x (hp.subset hx), fun h x hx => h x (hp.symm.subset hx)⟩]
  constructor
  · intro h
    rcases order_cases ask order with hu | ⟨a, ha⟩ | ⟨before, after, rfl, hb⟩
    · exact hu
    · obtain ⟨before, after, rfl, hb, hr⟩ := ha
      rw [get_first hb hr] at h
      exact absurd h (get_one decode ask a hr).2.2.2
    · rw [get_none_first hb] at h; cases h
  · exact get_all_unreachable

/-- **C60**: `get` raises `ExplorerNoContent` exactly when the first reachable explorer says that there is nothing, and
`ExplorerServerError` exactly when it refuses otherwise. -/
theorem C60_get_refused (decode : Bytes → Option Str) (ask : Str → Reply) (order : List Address) :
    (explorerGet decode ask order = .error .explorerNoContent ↔ ∃ a, FirstReachable ask order a ∧ SaysNoContent decode (ask a)) ∧
    (explorerGet decode ask order = .error .explorerServerError ↔ ∃ a, FirstReachable ask order a ∧ SaysError decode (ask a)) := by
  constructor <;> constructor
  · intro h
    rcases order_cases ask order with hu | ⟨a, ha⟩ | ⟨before, after, rfl, hb⟩
    · rw [get_all_unreachable hu] at h; cases h
    · obtain ⟨before, after, rfl, hb, hr⟩ := ha
      rw [get_first hb hr] at h
      exact ⟨a, ⟨before, after, rfl, hb, hr⟩, (get_one decode ask a hr).2.1.1 h⟩
    · rw [get_none_first hb] at h; cases h
  · rintro ⟨a, ⟨before, after, rfl, hb, hr⟩, h⟩
    rw [get_first hb hr]
    exact (get_one decode ask a hr).2.1.2 h
  · intro h
    rcases order_cases ask order with hu | ⟨a, ha⟩ | ⟨before, after, rfl, hb⟩
    · rw [get_all_unreachable hu] at h; cases h
    · obtain ⟨before, after, rfl, hb, hr⟩ := ha
      rw [get_first hb hr] at h
      exact ⟨a, ⟨before, after, rfl, hb, hr⟩, (get_one decode ask a hr).2.2.1.1 h⟩
    · rw [get_none_first hb] at h; cases h
  · rintro ⟨a, ⟨before, after, rfl, hb, hr⟩, h⟩
    rw [get_first hb hr]
    exact (get_one decode ask a hr).2.2.1.2 h

/-! ## Posting -/

theorem post_first {dumps : Json → Str} {ask : Str → Bytes → Reply} {data : PostData} {d : Bytes} (hd : data.encode dumps = .ok d)
    {before : List Str} {after : List Address} {a : Str} (hb : ∀ x ∈ before, ask x d = .unreachable) (ha : ask a d ≠ .unreachable) :
    explorerPost dumps ask data (before.map some ++ some a :: after) =
      (before ++ (explorerPost dumps ask data [some a]).1, (explorerPost dumps ask data [some a]).2) := by
  induction before with
  | nil =>
    simp only [List.map_nil, List.nil_append, explorerPost, hd]
    cases h : ask a d <;> simp_all
  | cons x before ih =>
    have := ih fun y hy => hb y (List.mem_cons_of_mem _ hy)
    simp only [List.map_cons, List.cons_append]
    rw [explorerPost]
    simp only [hd, hb x List.mem_cons_self, this]

theorem post_unreachable {dumps : Json → Str} {ask : Str → Bytes → Reply} {data : PostData} {d : Bytes} (hd : data.encode dumps = .ok d)
    {order : List Str} (hb : ∀ x ∈ order, ask x d = .unreachable) :
    explorerPost dumps ask data (order.map some) = (order, .error .explorerNotAvailable) := by
  induction order with
  | nil => rfl
  | cons x before ih =>
    simp only [List.map_cons]
    rw [explorerPost]
    simp only [hd, hb x List.mem_cons_self, ih fun y hy => hb y (List.mem_cons_of_mem _ hy)]

/-- What the reply of the explorer that answers a `post` makes of it. -/
def PostVerdict : Reply → Res Bytes → Prop
  | .answer code line, r => if code = 200 then r = .ok line else r = .error .explorerServerPostError ∨ r = .error .typeError
  | .refused _ _, r => r = .error .explorerServerPostError
  | .badUrl, r => r = .error .valueError
  | .unreachable, _ => False

/-- **C60**: `post` sends the same bytes to one explorer after the other until one is reachable, whose answer decides; when none is reachable
it raises `ExplorerNotAvailable` after having tried each once. -/
theorem C60_post (dumps : Json → Str) (ask : Str → Bytes → Reply) (data : PostData) (d : Bytes) (hd : data.encode dumps = .ok d)
    (order : List Str) :
    (∀ before a after, order = before ++ a :: after → (∀ x ∈ before, ask x d = .unreachable) → ask a d ≠ .unreachable → ask a d ≠ .badUrl →
      (explorerPost dumps ask data (order.map some)).1 = before ++ [a] ∧
      PostVerdict (ask a d) (explorerPost dumps ask data (order.map some)).2) ∧
    ((explorerPost dumps ask data (order.map some)).2 = .error .explorerNotAvailable ↔ ∀ x ∈ order, ask x d = .unreachable) ∧
    ((∀ x ∈ order, ask x d = .unreachable) → (explorerPost dumps ask data (order.map some)).1 = order) := by
  refine ⟨?_, ?_, fun h => by rw [post_unreachable hd h]⟩
  · rintro before a after rfl hb ha hu
    simp only [List.map_append, List.map_cons]
    rw [post_first hd hb ha]
    simp only [explorerPost, hd]
    cases h : ask a d with
    | unreachable => exact absurd h ha
    | badUrl => exact absurd h hu
    | refused c b => exact ⟨rfl, rfl⟩
    | answer code line =>
      simp only
      by_cases hc : okCodes.contains code = true
      · simp only [hc, not_true, if_false]
        by_cases h0 : code = 200
        · subst h0; exact ⟨rfl, rfl⟩
        · simp only [h0, if_false, PostVerdict, true_and]
          exact Or.inl trivial
      · simp only [hc, not_false_eq_true, if_true, true_and]
        have : code ≠ 200 := by rintro rfl; exact hc (by decide)
        simp only [PostVerdict, if_neg this]
        exact ⟨rfl, Or.inr rfl⟩
  · constructor
    · intro h
      induction order with
      | nil => simp
      | cons x order ih =>
        simp only [List.map_cons] at h
        rw [explorerPost] at h
        simp only [hd] at h
        cases hx : ask x d with
        | unreachable =>
          simp only [hx] at h
          exact List.forall_mem_cons.mpr ⟨hx, ih h⟩
        | badUrl => simp [hx] at h
        | refused c b => simp [hx] at h
        | answer code line =>
          simp only [hx] at h
          repeat' split at h
          all_goals simp at h
    · intro h; rw [post_unreachable hd h]

/-! ## C93: an explorer that works is found -/

/-- **C93** (partial: only when every explorer that is reachable answers 200): an answer of one of the explorers is returned, in whatever
order they are tried. -/
theorem C93_failover_partial (decode : Bytes → Option Str) (ask : Str → Reply) (addresses order : List Address) (hp : order.Perm addresses)
    (ht : ∀ x ∈ addresses, x ≠ none) (hw : ∃ a line, some a ∈ addresses ∧ ask a = .answer 200 line)
    (hall : ∀ a, some a ∈ addresses → ask a = .unreachable ∨ ∃ line, ask a = .answer 200 line) :
    ∃ a line, some a ∈ addresses ∧ ask a = .answer 200 line ∧ explorerGet decode ask order = .ok line := by
  rcases order_cases ask order with hu | ⟨a, ha⟩ | ⟨before, after, rfl, hb⟩
  · obtain ⟨a, line, ha, hl⟩ := hw
    obtain ⟨s, hs, hs'⟩ := hu _ (hp.symm.subset ha)
    cases hs
    rw [hl] at hs'; cases hs'
  · have hm : some a ∈ addresses := by
      obtain ⟨before, after, rfl, _, _⟩ := ha
      exact hp.subset (by simp)
    rcases hall a hm with h | ⟨line, h⟩
    · obtain ⟨_, _, _, _, h'⟩ := ha
      exact absurd h h'
    · exact ⟨a, line, hm, h, (C60_get_answer decode ask order line).2 ⟨a, ha, h⟩⟩
  · exact absurd rfl (ht none (hp.subset (by simp)))

/-- Two explorers of which the first is overloaded. -/
def overloaded : Str → Reply := fun a => if a = "https://a".toList then .refused 503 [] else .answer 200 [1]

/-- **C93** is false as documented ("traversed until an explorer returns with a 200 OK status"): with one explorer that answers 200 and one
that answers 503, `get` raises or returns depending on the order in which they happen to be tried. -/
theorem C93_failover_false : ∃ (decode : Bytes → Option Str) (addresses order order' : List Address),
    order.Perm addresses ∧ order'.Perm addresses ∧ (∃ a line, some a ∈ addresses ∧ overloaded a = .answer 200 line) ∧
    explorerGet decode overloaded order = .error .explorerServerError ∧ explorerGet decode overloaded order' = .ok [1] :=
  ⟨fun _ => some [], [some "https://a".toList, some "https://b".toList], [some "https://a".toList, some "https://b".toList],
   [some "https://b".toList, some "https://a".toList], List.Perm.refl _, List.Perm.swap _ _ _, ⟨"https://b".toList, [1], by simp, by decide⟩,
   by decide, by decide⟩

/-- An explorer that is down, one that works. -/
def down : Str → Reply := fun a => if a = "https://a".toList then .unreachable else .answer 200 [1]

example : FirstReachable down [some "https://a".toList, some "https://b".toList] "https://b".toList ∧
    down "https://b".toList = .answer 200 [1] :=
  ⟨⟨[some "https://a".toList], [], rfl, fun x hx => ⟨"https://a".toList, by simpa using hx, by decide⟩, by decide⟩, by decide⟩
example : ∀ x ∈ [some "https://a".toList], Unreachable down x := fun x hx => ⟨"https://a".toList, by simpa using hx, by decide⟩
example : SaysNoContent (fun _ => some "the hash: not found".toList) (.refused 400 [0]) :=
  ⟨rfl, _, rfl, Or.inr ⟨"the hash: ".toList, [], by decide⟩⟩
example : SaysError (fun _ => some []) (overloaded "https://a".toList) := by
  have : overloaded "https://a".toList = .refused 503 [] := by decide
  rw [this]
  exact ⟨Or.inl (by decide), fun h => absurd h.1 (by decide)⟩
example : (PostData.str "{}".toList).encode (fun _ => []) = .ok [123, 125] := by decide
example : (explorerPost (fun _ => []) (fun a _ => down a) (.str "{}".toList) [some "https://a".toList, some "https://b".toList]) =
    (["https://a".toList, "https://b".toList], .ok [1]) := by decide

end TF.Props
