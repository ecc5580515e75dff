import Verif.Spec.JsonText
import Verif.Model.JsonText
import Verif.Props.Client
import Verif.Props.Connect
import Verif.Props.Explorer
import Verif.Lemmas.Text
/-! # C122: JSON as text -/
namespace TF.Props
open TF TF.Spec

theorem load_bind {α β : Type} {r : Except LoadErr α} {f : α → Except LoadErr β} {b : β} (h : (r >>= f) = .ok b) : ∃ a, r = .ok a ∧ f a = .ok b := by
  cases r with
  | error e => cases h
  | ok a => exact ⟨a, rfl, h⟩

/-! ## Strings -/

theorem hexDigit_eq (c : Char) : hexDigit c = hexVal c := by
  by_cases h : c.toNat < 128
  · have key : ∀ n < 128, hexDigit (Char.ofNat n) = hexVal (Char.ofNat n) := by decide +kernel
    have := key c.toNat h
    rwa [Char.ofNat_toNat] at this
  · have h1 : hexVal c = none := by
      unfold hexVal
      simp only
      rw [if_neg (by omega), if_neg (by omega), if_neg (by omega)]
    rw [h1]
    unfold hexDigit
    rw [List.findSome?_eq_none_iff]
    have key : ∀ p ∈ (List.range 16).zip "0123456789abcdef".toList ++ (List.range 16).zip "0123456789ABCDEF".toList, p.2.toNat < 128 := by decide +kernel
    intro p hp
    have := key p hp
    rw [if_neg]
    rintro rfl
    omega

theorem hex4_iff {a b c d : Char} {n : Nat} : hex4 a b c d = some n ↔ Hex a b c d n := by
  unfold hex4 Hex
  simp only [hexDigit_eq]
  cases hexVal a <;> cases hexVal b <;> cases hexVal c <;> cases hexVal d <;> simp <;> omega

theorem unescape_iff {e x : Char} : unescape e = some x ↔ ∃ n, (e, n) ∈ escapes ∧ x = Char.ofNat n := by
  unfold unescape escapes
  constructor
  · intro h
    repeat' split at h
    all_goals first
      | (cases h; done)
      | (injection h with h; subst h; subst_vars; simp; decide)
      | (injection h with h; subst h; subst_vars; simp)
  · rintro ⟨n, h, rfl⟩
    simp only [List.mem_cons, Prod.mk.injEq, List.not_mem_nil, or_false] at h
    rcases h with ⟨rfl, rfl⟩ | ⟨rfl, rfl⟩ | ⟨rfl, rfl⟩ | ⟨rfl, rfl⟩ | ⟨rfl, rfl⟩ | ⟨rfl, rfl⟩ | ⟨rfl, rfl⟩ | ⟨rfl, rfl⟩ <;> rfl

theorem string_complete {v t : Str} (h : Chars v t) (rest : Str) : jsonString (t ++ '"' :: rest) = .ok (v, rest) := by
  induction h with
  | nil => rw [jsonString.eq_def]; rfl
  | plain c v t h1 h2 h3 _ ih =>
    rw [List.cons_append, jsonString.eq_def]
    simp only
    rw [if_neg h2, if_neg h3, if_neg (by omega), ih]
    rfl
  | escape e n v t hk _ ih =>
    rw [List.cons_append, List.cons_append, jsonString.eq_def]
    simp only
    rw [if_neg (by decide), if_pos trivial, if_neg (by rintro rfl; revert hk; simp [escapes]), unescape_iff.2 ⟨n, hk, rfl⟩, ih]
    rfl
  | code a b c d n v t hx hw _ ih =>
    simp only [List.cons_append]
    rw [jsonString.eq_def]
    simp only
    rw [if_neg (by decide), if_pos trivial, if_pos trivial, hex4_iff.2 hx]
    simp only
    rw [if_neg (by omega), if_neg (by omega), ih]
    rfl
  | pair a b c d a' b' c' d' n m v t hx hx' hh hlo _ ih =>
    simp only [List.cons_append]
    rw [jsonString.eq_def]
    simp only
    rw [if_neg (by decide), if_pos trivial, if_pos trivial, hex4_iff.2 hx]
    simp only
    rw [if_pos (by omega), hex4_iff.2 hx']
    simp only
    rw [if_pos (by omega), ih]
    rfl

theorem string_sound : ∀ (n : Nat) {s v rest : Str}, s.length ≤ n → jsonString s = .ok (v, rest) → ∃ t, Chars v t ∧ s = t ++ '"' :: rest := by
  intro n
  induction n with
  | zero =>
    intro s v rest hn h
    cases s with
    | nil => rw [jsonString.eq_def] at h; cases h
    | cons => simp at hn
  | succ n ih =>
    intro s v rest hn h
    cases s with
    | nil => rw [jsonString.eq_def] at h; cases h
    | cons c r =>
      simp only [List.length_cons] at hn
      rw [jsonString.eq_def] at h
      simp only at h
      by_cases e1 : c = '"'
      · rw [if_pos e1] at h
        cases h
        exact ⟨[], .nil, by simp [e1]⟩
      · rw [if_neg e1] at h
        by_cases e2 : c = '\\'
        · rw [if_pos e2] at h
          cases r with
          | nil => cases h
          | cons e r =>
            simp only [List.length_cons] at h hn
            by_cases e3 : e = 'u'
            · rw [if_pos e3] at h
              match r, h with
              | [], h => cases h
              | [_], h => cases h
              | [_, _], h => cases h
              | [_, _, _], h => cases h
              | a :: b :: c1 :: d :: r, h =>
                simp only [List.length_cons] at h hn
                cases hx : hex4 a b c1 d with
                | none => rw [hx] at h; cases h
                | some k =>
                  rw [hx] at h
                  simp only at h
                  by_cases e4 : 0xd800 ≤ k ∧ k < 0xdc00
                  · rw [if_pos e4] at h
                    split at h
                    · rename_i a' b' c' d' r'
                      cases hy : hex4 a' b' c' d' with
                      | none => rw [hy] at h; cases h
                      | some m =>
                        rw [hy] at h
                        simp only at h
                        by_cases e5 : 0xdc00 ≤ m ∧ m < 0xe000
                        · rw [if_pos e5] at h
                          obtain ⟨⟨v', rest'⟩, h1, h⟩ := load_bind h
                          cases h
                          obtain ⟨t, h2, h3⟩ := ih (by simp only [List.length_cons] at hn; omega) h1
                          exact ⟨_, .pair a b c1 d a' b' c' d' k m v' t (hex4_iff.1 hx) (hex4_iff.1 hy) (by omega) (by omega) h2, by rw [e2, e3, h3]; rfl⟩
                        · rw [if_neg e5] at h; cases h
                    · cases h
                  · rw [if_neg e4] at h
                    by_cases e5 : 0xdc00 ≤ k ∧ k < 0xe000
                    · rw [if_pos e5] at h; cases h
                    · rw [if_neg e5] at h
                      obtain ⟨⟨v', rest'⟩, h1, h⟩ := load_bind h
                      cases h
                      obtain ⟨t, h2, h3⟩ := ih (by omega) h1
                      exact ⟨_, .code a b c1 d k v' t (hex4_iff.1 hx) (by omega) h2, by rw [e2, e3, h3]; rfl⟩
            · rw [if_neg e3] at h
              cases hu : unescape e with
              | none => rw [hu] at h; cases h
              | some x =>
                rw [hu] at h
                simp only at h
                obtain ⟨⟨v', rest'⟩, h1, h⟩ := load_bind h
                cases h
                obtain ⟨t, h2, h3⟩ := ih (by omega) h1
                obtain ⟨k, hk, rfl⟩ := unescape_iff.1 hu
                exact ⟨_, .escape e k v' t hk h2, by rw [e2, h3]; rfl⟩
        · rw [if_neg e2] at h
          by_cases e3 : c.toNat < 32
          · rw [if_pos e3] at h; cases h
          · rw [if_neg e3] at h
            obtain ⟨⟨v', rest'⟩, h1, h⟩ := load_bind h
            cases h
            obtain ⟨t, h2, h3⟩ := ih (by omega) h1
            exact ⟨_, .plain c v' t (by omega) e1 e2 h2, by rw [h3]; rfl⟩

/-! ## White space -/

theorem ws_iff {c : Char} : isJsonWs c = true ↔ c = ' ' ∨ c = '\t' ∨ c = '\n' ∨ c = '\r' := by
  simp [isJsonWs, Bool.or_eq_true, or_assoc]

theorem mem_takeWhile {p : Char → Bool} {c : Char} : ∀ {s : Str}, c ∈ s.takeWhile p → p c = true
  | [], h => by simp at h
  | x :: s, h => by
    rw [List.takeWhile_cons] at h
    split at h
    · rcases List.mem_cons.1 h with rfl | h
      · assumption
      · exact mem_takeWhile h
    · cases h

theorem skip_split (s : Str) : ∃ w, Space w ∧ s = w ++ skipWs s := by
  refine ⟨s.takeWhile isJsonWs, ?_, (List.takeWhile_append_dropWhile).symm⟩
  intro c hc
  have := mem_takeWhile hc
  exact ws_iff.1 this

theorem skip_space {w : Str} (hw : Space w) (s : Str) : skipWs (w ++ s) = skipWs s := by
  unfold skipWs
  rw [List.dropWhile_append_of_pos]
  intro c hc
  exact ws_iff.2 (hw c hc)

theorem skip_self {c : Char} {r : Str} (h : isJsonWs c = false) : skipWs (c :: r) = c :: r := by
  simp [skipWs, List.dropWhile, h]

theorem skip_nil {s : Str} (h : skipWs s = []) : Space s := by
  obtain ⟨w, h1, h2⟩ := skip_split s
  rw [h, List.append_nil] at h2
  rw [h2]; exact h1

/-! ## Numbers -/

theorem dig_iff {c : Char} : isDig c = true ↔ 48 ≤ c.toNat ∧ c.toNat ≤ 57 := by simp [isDig]

theorem digVal_eq (ds : Str) : digVal ds = digitsValue ds := rfl

/-- What may follow a number. -/
def Stops (rest : Str) : Prop := ∀ c r, rest = c :: r → isDig c = false ∧ c ≠ '.' ∧ c ≠ 'e' ∧ c ≠ 'E'

theorem stops_floats {rest : Str} (h : Stops rest) : floats rest = false := by
  unfold floats
  split
  · exact absurd rfl (h _ _ rfl).2.1
  · obtain ⟨_, _, h1, h2⟩ := h _ _ rfl
    simp [h1, h2]
  · obtain ⟨_, _, h1, h2⟩ := h _ _ rfl
    simp [h1, h2]
  · rfl

theorem takeWhile_stops {ds rest : Str} (hd : ∀ c ∈ ds, isDig c = true) (h : Stops rest) : (ds ++ rest).takeWhile isDig = ds := by
  induction ds with
  | nil =>
    cases rest with
    | nil => rfl
    | cons c r => simp [(h c r rfl).1]
  | cons c ds ih => simp [hd c (by simp), ih (fun c hc => hd c (by simp [hc]))]

theorem whole_part {ds rest : Str} (hd : ∀ c ∈ ds, isDig c = true) (hz : ∀ r, ds = '0' :: r → r = []) (hne : ds ≠ []) (h : Stops rest) :
    wholePart (ds ++ rest) = ds := by
  cases ds with
  | nil => exact absurd rfl hne
  | cons c ds =>
    show (if c = '0' then ['0'] else (c :: (ds ++ rest)).takeWhile isDig) = _
    by_cases e : c = '0'
    · rw [if_pos e, e, hz ds (by rw [e])]
    · rw [if_neg e]
      exact takeWhile_stops (ds := c :: ds) hd h

theorem number_complete {ds rest : Str} (neg : Bool) (hne : ds ≠ []) (hd : ∀ c ∈ ds, isDig c = true) (hz : ∀ r, ds = '0' :: r → r = []) (h : Stops rest) :
    jsonNumber neg (ds ++ rest) = .ok (.int (if neg then -(digitsValue ds : Int) else digitsValue ds), rest) := by
  unfold jsonNumber
  simp only [whole_part hd hz hne h, List.drop_left]
  rw [if_neg hne, if_neg (by rw [stops_floats h]; decide)]
  rfl

theorem takeWhile_digits (r : Str) : ∀ c ∈ r.takeWhile isDig, isDig c = true := fun _ hc => mem_takeWhile hc

theorem number_sound {neg : Bool} {r rest : Str} {j : Json} (h : jsonNumber neg r = .ok (j, rest)) :
    ∃ i t, j = .int i ∧ Whole i ((if neg then ['-'] else []) ++ t) ∧ r = t ++ rest := by
  unfold jsonNumber at h
  by_cases e1 : wholePart r = []
  · rw [if_pos e1] at h; cases h
  · rw [if_neg e1] at h
    by_cases e2 : floats (r.drop (wholePart r).length) = true
    · rw [if_pos e2] at h; cases h
    · rw [if_neg e2] at h
      cases h
      have hw : (∀ c ∈ wholePart r, isDig c = true) ∧ (∀ x, wholePart r = '0' :: x → x = []) ∧ r = wholePart r ++ r.drop (wholePart r).length := by
        cases r with
        | nil => exact absurd rfl e1
        | cons c r =>
          unfold wholePart
          simp only
          by_cases e : c = '0'
          · rw [if_pos e]
            refine ⟨by simp; decide, by simp, by simp [e]⟩
          · rw [if_neg e]
            refine ⟨takeWhile_digits _, ?_, ?_⟩
            · intro x hx
              rw [List.takeWhile_cons] at hx
              split at hx
              · injection hx with h1 _; exact absurd h1 e
              · cases hx
            · conv_lhs => rw [← List.takeWhile_append_dropWhile (p := isDig) (l := c :: r)]
              congr 1
              generalize (c :: r) = l
              induction l with
              | nil => rfl
              | cons x l ih =>
                rw [List.takeWhile_cons, List.dropWhile_cons]
                split
                · simpa using ih
                · rfl
      obtain ⟨h1, h2, h3⟩ := hw
      refine ⟨_, wholePart r, rfl, ⟨wholePart r, e1, fun c hc => dig_iff.1 (h1 c hc), h2, ?_⟩, h3⟩
      cases neg
      · exact .inl ⟨rfl, rfl⟩
      · exact .inr ⟨rfl, rfl⟩

/-! ## Objects -/

theorem jget_none {d : List (String × Json)} {k : String} : jget d k = none ↔ ∀ p ∈ d, p.1 ≠ k := by
  unfold jget
  rw [Option.map_eq_none_iff, List.find?_eq_none]
  simp

theorem dictOf_cons (k : Str) (v : Json) (l : List (Str × Json)) :
    dictOf ((k, v) :: l) = (String.ofList k, (jget (dictOf l) (String.ofList k)).getD v) :: (dictOf l).filter fun p => p.1 ≠ String.ofList k := by
  show (match jget (dictOf l) (String.ofList k) with
    | none => (String.ofList k, v) :: dictOf l
    | some w => (String.ofList k, w) :: (dictOf l).filter fun p => p.1 ≠ String.ofList k) = _
  cases h : jget (dictOf l) (String.ofList k) with
  | some w => rfl
  | none =>
    simp only [Option.getD_none]
    rw [List.filter_eq_self.2]
    intro p hp
    exact decide_eq_true (jget_none.1 h p hp)

theorem dictGet_cons (K : String) (v : Json) (d : List (String × Json)) (x : String) : jget ((K, v) :: d) x = if K = x then some v else jget d x := by
  unfold jget
  by_cases h : K = x
  · simp [h]
  · simp [h]

theorem dictGet_filter (d : List (String × Json)) {K x : String} (h : x ≠ K) : jget (d.filter fun p => p.1 ≠ K) x = jget d x := by
  induction d with
  | nil => rfl
  | cons p d ih =>
    obtain ⟨a, v⟩ := p
    by_cases e : a = K
    · rw [List.filter_cons_of_neg (by simp [e]), ih, dictGet_cons, if_neg (by rw [e]; exact fun h' => h h'.symm)]
    · rw [List.filter_cons_of_pos (by simp [e]), dictGet_cons, dictGet_cons, ih]

theorem foldl_dict (l : List (Str × Json)) : ∀ d : List (String × Json),
    l.foldl dictPut d = d.map (fun q => (q.1, (jget (dictOf l) q.1).getD q.2)) ++ (dictOf l).filter fun q => !(d.any fun p => p.1 == q.1) := by
  induction l with
  | nil =>
    intro d
    simp [dictOf, jget]
  | cons p l ih =>
    intro d
    obtain ⟨k, v⟩ := p
    rw [List.foldl_cons, ih, dictOf_cons]
    by_cases hk : d.any (fun q => q.1 == String.ofList k) = true
    · have hd : dictPut d (k, v) = d.map fun q => if q.1 == String.ofList k then (q.1, v) else q := by simp [dictPut, hk]
      rw [hd]
      congr 1
      · rw [List.map_map]
        apply List.map_congr_left
        intro q _
        simp only [Function.comp]
        rw [dictGet_cons]
        by_cases e : q.1 = String.ofList k
        · simp [e]
        · have e' : (q.1 == String.ofList k) = false := by simpa using e
          simp only [e', Bool.false_eq_true, if_false]
          rw [if_neg (fun h => e h.symm), dictGet_filter _ e]
      · rw [List.filter_cons_of_neg (by simp [hk]), List.filter_filter]
        apply List.filter_congr
        intro q hq
        have : ((d.map fun q => if q.1 == String.ofList k then (q.1, v) else q).any fun p => p.1 == q.1) = d.any fun p => p.1 == q.1 := by
          rw [List.any_map]
          congr 1
          funext p
          simp only [Function.comp]
          split <;> rfl
        rw [this]
        by_cases e : q.1 = String.ofList k
        · rw [e]; simp [hk]
        · simp [e]
    · have hd : dictPut d (k, v) = d ++ [(String.ofList k, v)] := by simp [dictPut, hk]
      rw [hd, List.map_append, List.append_assoc]
      rw [List.filter_cons_of_pos (by simp only [Bool.not_eq_true] at hk; simp [hk])]
      congr 1
      · apply List.map_congr_left
        intro q hq
        have e : q.1 ≠ String.ofList k := by
          intro e
          apply hk
          rw [List.any_eq_true]
          exact ⟨q, hq, by simp [e]⟩
        rw [dictGet_cons, if_neg (fun h => e h.symm), dictGet_filter _ e]
      · simp only [List.map_cons, List.map_nil, List.cons_append, List.nil_append]
        congr 1
        rw [List.filter_filter]
        apply List.filter_congr
        intro q hq
        rw [List.any_append]
        by_cases e : q.1 = String.ofList k
        · simp [e]
        · have : (String.ofList k == q.1) = false := by simpa using fun h => e h.symm
          simp [e, this]

theorem dict_eq (l : List (Str × Json)) : l.foldl dictPut [] = dictOf l := by
  rw [foldl_dict]
  simp

/-! ## Values -/

theorem written_head {j : Json} {t : Str} (h : Notation (.value j) t) : ∃ c r, t = c :: r ∧ isJsonWs c = false ∧ c ≠ ']' ∧ c ≠ '}' := by
  cases h with
  | null => exact ⟨'n', "ull".toList, rfl, by decide⟩
  | true => exact ⟨'t', "rue".toList, rfl, by decide⟩
  | false => exact ⟨'f', "alse".toList, rfl, by decide⟩
  | int i t h =>
    obtain ⟨ds, hne, hd, _, ⟨rfl, _⟩ | ⟨rfl, _⟩⟩ := h
    · cases t with
      | nil => exact absurd rfl hne
      | cons c r =>
        have := hd c (by simp)
        refine ⟨c, r, rfl, ?_, ?_, ?_⟩
        · rw [← Bool.not_eq_true, ws_iff]
          rintro (rfl | rfl | rfl | rfl) <;> revert this <;> decide
        · rintro rfl; revert this; decide
        · rintro rfl; revert this; decide
    · exact ⟨'-', ds, rfl, by decide⟩
  | str v t h => exact ⟨'"', _, rfl, by decide⟩
  | noItems w h => exact ⟨'[', _, rfl, by decide⟩
  | arr l t h => exact ⟨'[', _, rfl, by decide⟩
  | noMembers w h => exact ⟨'{', _, rfl, by decide⟩
  | obj l t h => exact ⟨'{', _, rfl, by decide⟩

theorem skip_written {j : Json} {t : Str} (h : Notation (.value j) t) (rest : Str) : skipWs (t ++ rest) = t ++ rest := by
  obtain ⟨c, r, rfl, h1, _⟩ := written_head h
  exact skip_self h1

theorem items_head {l : List Json} {t : Str} (h : Notation (.items l) t) (rest : Str) : ∃ c r, skipWs (t ++ rest) = c :: r ∧ c ≠ ']' := by
  cases h with
  | lastItem j w t w' hw hv _ =>
    obtain ⟨c, r, rfl, h1, h2, _⟩ := written_head hv
    exact ⟨c, _, by rw [List.append_assoc, List.append_assoc, skip_space hw]; exact skip_self h1, h2⟩
  | item j w t w' l u hw hv _ _ =>
    obtain ⟨c, r, rfl, h1, h2, _⟩ := written_head hv
    exact ⟨c, _, by simp only [List.append_assoc]; rw [skip_space hw]; exact skip_self h1, h2⟩

theorem members_head {l : List (Str × Json)} {t : Str} (h : Notation (.members l) t) (rest : Str) : ∃ r, skipWs (t ++ rest) = '"' :: r := by
  cases h with
  | lastMember k n j w w1 w2 t w' hw _ _ _ _ _ =>
    exact ⟨_, by simp only [List.append_assoc]; rw [skip_space hw]; exact skip_self (by decide)⟩
  | member k n j w w1 w2 t w' l u hw _ _ _ _ _ _ =>
    exact ⟨_, by simp only [List.append_assoc]; rw [skip_space hw]; exact skip_self (by decide)⟩

theorem stops_space {w rest : Str} (hw : Space w) (h : Stops rest) : Stops (w ++ rest) := by
  cases w with
  | nil => exact h
  | cons c w =>
    intro c' r' e
    injection e with e1 _
    subst e1
    rcases hw c (by simp) with rfl | rfl | rfl | rfl <;> decide

theorem stops_char {c : Char} {r : Str} (h : isDig c = false ∧ c ≠ '.' ∧ c ≠ 'e' ∧ c ≠ 'E') : Stops (c :: r) := by
  intro c' r' e
  injection e with e1 _
  subst e1; exact h

theorem stops_nil : Stops [] := by intro _ _ e; cases e

theorem word_none {c : Char} {r : Str} (h1 : c ≠ 'n') (h2 : c ≠ 't') (h3 : c ≠ 'f') : jsonWord (c :: r) = none := by
  unfold jsonWord
  have e1 : "null".toList.isPrefixOf (c :: r) = false := by simp [List.isPrefixOf, h1.symm]
  have e2 : "true".toList.isPrefixOf (c :: r) = false := by simp [List.isPrefixOf, h2.symm]
  have e3 : "false".toList.isPrefixOf (c :: r) = false := by simp [List.isPrefixOf, h3.symm]
  rw [e1, e2, e3]; rfl

theorem number_value {n : Nat} {c : Char} {r : Str} (h : c = '-' ∨ isDig c = true) :
    jsonValue (n + 1) (c :: r) = if c = '-' then jsonNumber true r else jsonNumber false (c :: r) := by
  have hc : c ≠ '"' ∧ c ≠ '[' ∧ c ≠ '{' ∧ c ≠ 'n' ∧ c ≠ 't' ∧ c ≠ 'f' ∧ c ≠ 'N' ∧ c ≠ 'I' := by
    rcases h with rfl | h
    · decide
    · refine ⟨?_, ?_, ?_, ?_, ?_, ?_, ?_, ?_⟩ <;> (rintro rfl; revert h; decide)
  obtain ⟨h1, h2, h3, h4, h5, h6, h7, h8⟩ := hc
  rw [jsonValue.eq_def]
  simp only
  rw [if_neg h1, if_neg h2, if_neg h3, word_none h4 h5 h6]
  simp only
  rw [if_neg]
  simp [h7.symm, h8.symm]

/-- What the three functions do on texts written as JSON. -/
def Understands : Form → Str → Prop
  | .value j, t => ∀ n rest, 2 * t.length ≤ n → Stops rest → jsonValue n (t ++ rest) = .ok (j, rest)
  | .items l, t => ∀ n rest, 2 * t.length + 1 ≤ n → jsonItems n (skipWs (t ++ ']' :: rest)) = .ok (l, rest)
  | .members l, t => ∀ n rest, 2 * t.length + 1 ≤ n → jsonMembers n (skipWs (t ++ '}' :: rest)) = .ok (l, rest)

theorem understands {F : Form} {t : Str} (h : Notation F t) : Understands F t := by
  induction h with
  | null =>
    intro n rest hn _
    obtain ⟨m, rfl⟩ : ∃ m, n = m + 1 := ⟨n - 1, by rw [show "null".toList.length = 4 by decide] at hn; omega⟩
    rfl
  | true =>
    intro n rest hn _
    obtain ⟨m, rfl⟩ : ∃ m, n = m + 1 := ⟨n - 1, by rw [show "true".toList.length = 4 by decide] at hn; omega⟩
    rfl
  | false =>
    intro n rest hn _
    obtain ⟨m, rfl⟩ : ∃ m, n = m + 1 := ⟨n - 1, by rw [show "false".toList.length = 5 by decide] at hn; omega⟩
    rfl
  | int i t h =>
    intro n rest hn hs
    obtain ⟨ds, hne, hd, hz, ⟨rfl, rfl⟩ | ⟨rfl, rfl⟩⟩ := h
    · cases t with
      | nil => exact absurd rfl hne
      | cons c r =>
        obtain ⟨m, rfl⟩ : ∃ m, n = m + 1 := ⟨n - 1, by simp only [List.length_cons] at hn; omega⟩
        have hc := hd c (by simp)
        have : c ≠ '-' := by rintro rfl; revert hc; decide
        rw [List.cons_append, number_value (.inr (dig_iff.2 hc)), if_neg this]
        exact number_complete (ds := c :: r) false hne (fun c hc => dig_iff.2 (hd c hc)) hz hs
    · obtain ⟨m, rfl⟩ : ∃ m, n = m + 1 := ⟨n - 1, by simp only [List.length_cons] at hn; omega⟩
      rw [List.cons_append, number_value (.inl rfl), if_pos rfl]
      exact number_complete true hne (fun c hc => dig_iff.2 (hd c hc)) hz hs
  | str v t h =>
    intro n rest hn _
    obtain ⟨m, rfl⟩ : ∃ m, n = m + 1 := ⟨n - 1, by simp only [List.length_append, List.length_cons] at hn; omega⟩
    rw [jsonValue.eq_def]
    simp only [List.cons_append, List.append_assoc, List.nil_append]
    rw [if_pos trivial, string_complete h]
    rfl
  | noItems w h =>
    intro n rest hn _
    obtain ⟨m, rfl⟩ : ∃ m, n = m + 1 := ⟨n - 1, by simp only [List.length_append, List.length_cons] at hn; omega⟩
    rw [jsonValue.eq_def]
    simp only [List.cons_append, List.append_assoc, List.nil_append]
    rw [if_neg (by decide), if_pos trivial, skip_space h, skip_self (by decide)]
    simp
  | arr l t h ih =>
    intro n rest hn _
    simp only [List.length_append, List.length_cons, List.length_nil] at hn
    obtain ⟨m, rfl⟩ : ∃ m, n = m + 1 := ⟨n - 1, by omega⟩
    rw [jsonValue.eq_def]
    simp only [List.cons_append, List.append_assoc, List.nil_append]
    rw [if_neg (by decide), if_pos trivial]
    obtain ⟨c, r, h1, h2⟩ := items_head h (']' :: rest)
    have := ih m rest (by omega)
    rw [h1] at this ⊢
    simp only
    rw [if_neg h2, this]
    rfl
  | noMembers w h =>
    intro n rest hn _
    obtain ⟨m, rfl⟩ : ∃ m, n = m + 1 := ⟨n - 1, by simp only [List.length_append, List.length_cons] at hn; omega⟩
    rw [jsonValue.eq_def]
    simp only [List.cons_append, List.append_assoc, List.nil_append]
    rw [if_neg (by decide), if_neg (by decide), if_pos trivial, skip_space h, skip_self (by decide)]
    simp
  | obj l t h ih =>
    intro n rest hn _
    simp only [List.length_append, List.length_cons, List.length_nil] at hn
    obtain ⟨m, rfl⟩ : ∃ m, n = m + 1 := ⟨n - 1, by omega⟩
    rw [jsonValue.eq_def]
    simp only [List.cons_append, List.append_assoc, List.nil_append]
    rw [if_neg (by decide), if_neg (by decide), if_pos trivial]
    obtain ⟨r, h1⟩ := members_head h ('}' :: rest)
    have := ih m rest (by omega)
    rw [h1] at this ⊢
    simp only
    rw [if_neg (by decide), this]
    show Except.ok (Json.obj (l.foldl dictPut []), rest) = _
    rw [dict_eq]
  | lastItem j w t w' hw hv hw' ih =>
    intro n rest hn
    simp only [List.length_append] at hn
    obtain ⟨m, rfl⟩ : ∃ m, n = m + 1 := ⟨n - 1, by omega⟩
    simp only [List.append_assoc]
    rw [skip_space hw, skip_written hv, jsonItems.eq_def]
    simp only
    rw [ih m (w' ++ ']' :: rest) (by omega) (stops_space hw' (stops_char (by decide)))]
    show (match skipWs (w' ++ ']' :: rest) with
      | [] => _
      | c :: r => _) = _
    rw [skip_space hw', skip_self (by decide)]
    simp
    rfl
  | item j w t w' l u hw hv hw' hm ih ih' =>
    intro n rest hn
    simp only [List.length_append, List.length_cons, List.length_nil] at hn
    obtain ⟨m, rfl⟩ : ∃ m, n = m + 1 := ⟨n - 1, by omega⟩
    simp only [List.append_assoc]
    rw [skip_space hw, skip_written hv, jsonItems.eq_def]
    simp only
    rw [ih m (w' ++ ([','] ++ (u ++ ']' :: rest))) (by omega) (stops_space hw' (stops_char (by decide)))]
    show (match skipWs (w' ++ ([','] ++ (u ++ ']' :: rest))) with
      | [] => _
      | c :: r => _) = _
    rw [skip_space hw', List.cons_append, skip_self (by decide)]
    simp only [List.nil_append]
    rw [if_pos trivial, ih' m rest (by omega)]
    rfl
  | lastMember k x j w w1 w2 t w' hw hc hw1 hw2 hv hw' ih =>
    intro n rest hn
    simp only [List.length_append, List.length_cons, List.length_nil] at hn
    obtain ⟨m, rfl⟩ : ∃ m, n = m + 1 := ⟨n - 1, by omega⟩
    simp only [List.append_assoc]
    rw [skip_space hw, List.cons_append, skip_self (by decide), jsonMembers.eq_def]
    simp only [List.cons_append, List.nil_append]
    rw [if_neg (by decide), string_complete hc]
    show (match skipWs (w1 ++ (':' :: (w2 ++ (t ++ (w' ++ '}' :: rest))))) with
      | [] => _
      | c :: r => _) = _
    rw [skip_space hw1, skip_self (by decide)]
    simp only
    rw [if_neg (by decide), skip_space hw2, skip_written hv, ih m (w' ++ '}' :: rest) (by omega) (stops_space hw' (stops_char (by decide)))]
    show (match skipWs (w' ++ '}' :: rest) with
      | [] => _
      | c :: r => _) = _
    rw [skip_space hw', skip_self (by decide)]
    simp
    rfl
  | member k x j w w1 w2 t w' l u hw hc hw1 hw2 hv hw' hm ih ih' =>
    intro n rest hn
    simp only [List.length_append, List.length_cons, List.length_nil] at hn
    obtain ⟨m, rfl⟩ : ∃ m, n = m + 1 := ⟨n - 1, by omega⟩
    simp only [List.append_assoc]
    rw [skip_space hw, List.cons_append, skip_self (by decide), jsonMembers.eq_def]
    simp only [List.cons_append, List.nil_append]
    rw [if_neg (by decide), string_complete hc]
    show (match skipWs (w1 ++ (':' :: (w2 ++ (t ++ (w' ++ (',' :: (u ++ '}' :: rest))))))) with
      | [] => _
      | c :: r => _) = _
    rw [skip_space hw1, skip_self (by decide)]
    simp only
    rw [if_neg (by decide), skip_space hw2, skip_written hv, ih m (w' ++ ',' :: (u ++ '}' :: rest)) (by omega) (stops_space hw' (stops_char (by decide)))]
    show (match skipWs (w' ++ ',' :: (u ++ '}' :: rest)) with
      | [] => _
      | c :: r => _) = _
    rw [skip_space hw', skip_self (by decide)]
    simp only
    rw [if_pos trivial, ih' m rest (by omega)]
    rfl

theorem items_space {l : List Json} {t w : Str} (hw : Space w) (h : Notation (.items l) t) : Notation (.items l) (w ++ t) := by
  have hs : ∀ {a : Str}, Space a → Space (w ++ a) := fun ha c hc => (List.mem_append.1 hc).elim (hw c) (ha c)
  cases h with
  | lastItem j a t b h1 h2 h3 =>
    have := Notation.lastItem j (w ++ a) t b (hs h1) h2 h3
    simpa only [List.append_assoc] using this
  | item j a t b l u h1 h2 h3 h4 =>
    have := Notation.item j (w ++ a) t b l u (hs h1) h2 h3 h4
    simpa only [List.append_assoc] using this

theorem members_space {l : List (Str × Json)} {t w : Str} (hw : Space w) (h : Notation (.members l) t) : Notation (.members l) (w ++ t) := by
  have hs : ∀ {a : Str}, Space a → Space (w ++ a) := fun ha c hc => (List.mem_append.1 hc).elim (hw c) (ha c)
  cases h with
  | lastMember k n j a w1 w2 t b h1 h2 h3 h4 h5 h6 =>
    have := Notation.lastMember k n j (w ++ a) w1 w2 t b (hs h1) h2 h3 h4 h5 h6
    simpa only [List.append_assoc] using this
  | member k n j a w1 w2 t b l u h1 h2 h3 h4 h5 h6 h7 =>
    have := Notation.member k n j (w ++ a) w1 w2 t b l u (hs h1) h2 h3 h4 h5 h6 h7
    simpa only [List.append_assoc] using this

theorem word_sound {s rest : Str} {j : Json} (h : jsonWord s = some (j, rest)) : ∃ t, Notation (.value j) t ∧ s = t ++ rest := by
  have key : ∀ (p : Str) (k : Nat), p.length = k → p.isPrefixOf s = true → s = p ++ s.drop k := by
    intro p k hk hp
    obtain ⟨r, rfl⟩ := List.isPrefixOf_iff_prefix.1 hp
    rw [← hk, List.drop_left]
  unfold jsonWord at h
  by_cases e1 : "null".toList.isPrefixOf s = true
  · rw [if_pos e1] at h
    cases h
    exact ⟨_, .null, key _ 4 (by decide) e1⟩
  · rw [if_neg e1] at h
    by_cases e2 : "true".toList.isPrefixOf s = true
    · rw [if_pos e2] at h
      cases h
      exact ⟨_, .true, key _ 4 (by decide) e2⟩
    · rw [if_neg e2] at h
      by_cases e3 : "false".toList.isPrefixOf s = true
      · rw [if_pos e3] at h
        cases h
        exact ⟨_, .false, key _ 5 (by decide) e3⟩
      · rw [if_neg e3] at h
        cases h

theorem parse_sound : ∀ n : Nat,
    (∀ s j rest, jsonValue n s = .ok (j, rest) → ∃ t, Notation (.value j) t ∧ s = t ++ rest) ∧
    (∀ s l rest, jsonItems n s = .ok (l, rest) → ∃ t, Notation (.items l) t ∧ s = t ++ ']' :: rest) ∧
    (∀ s l rest, jsonMembers n s = .ok (l, rest) → ∃ t, Notation (.members l) t ∧ s = t ++ '}' :: rest) := by
  intro n
  induction n with
  | zero =>
    refine ⟨?_, ?_, ?_⟩
    · intro s j rest h; rw [jsonValue.eq_def] at h; cases h
    · intro s j rest h; rw [jsonItems.eq_def] at h; cases h
    · intro s j rest h; rw [jsonMembers.eq_def] at h; cases h
  | succ n ih =>
    obtain ⟨ihv, ihi, ihm⟩ := ih
    refine ⟨?_, ?_, ?_⟩
    · intro s j rest h
      rw [jsonValue.eq_def] at h
      cases s with
      | nil => cases h
      | cons c r =>
        simp only at h
        by_cases e1 : c = '"'
        · rw [if_pos e1] at h
          obtain ⟨⟨v, rest'⟩, h1, h⟩ := load_bind h
          cases h
          obtain ⟨t, h2, h3⟩ := string_sound _ (Nat.le_refl _) h1
          exact ⟨_, .str v t h2, by rw [e1, h3]; simp⟩
        rw [if_neg e1] at h
        by_cases e2 : c = '['
        · rw [if_pos e2] at h
          obtain ⟨w, hw, hr⟩ := skip_split r
          cases hk : skipWs r with
          | nil => rw [hk] at h; cases h
          | cons c' r' =>
            rw [hk] at h hr
            simp only at h
            by_cases e3 : c' = ']'
            · rw [if_pos e3] at h
              cases h
              exact ⟨_, .noItems w hw, by rw [e2, hr, e3]; simp⟩
            · rw [if_neg e3] at h
              obtain ⟨⟨l, rest'⟩, h1, h⟩ := load_bind h
              cases h
              obtain ⟨t, h2, h3⟩ := ihi _ _ _ h1
              exact ⟨_, .arr l _ (items_space hw h2), by rw [e2, hr, h3]; simp⟩
        rw [if_neg e2] at h
        by_cases e3 : c = '{'
        · rw [if_pos e3] at h
          obtain ⟨w, hw, hr⟩ := skip_split r
          cases hk : skipWs r with
          | nil => rw [hk] at h; cases h
          | cons c' r' =>
            rw [hk] at h hr
            simp only at h
            by_cases e4 : c' = '}'
            · rw [if_pos e4] at h
              cases h
              exact ⟨_, .noMembers w hw, by rw [e3, hr, e4]; simp⟩
            · rw [if_neg e4] at h
              obtain ⟨⟨l, rest'⟩, h1, h⟩ := load_bind h
              cases h
              obtain ⟨t, h2, h3⟩ := ihm _ _ _ h1
              rw [dict_eq]
              exact ⟨_, .obj l _ (members_space hw h2), by rw [e3, hr, h3]; simp⟩
        rw [if_neg e3] at h
        cases hw : jsonWord (c :: r) with
        | some x =>
          rw [hw] at h
          obtain ⟨j', rest'⟩ := x
          cases h
          exact word_sound hw
        | none =>
          rw [hw] at h
          simp only at h
          by_cases e4 : "NaN".toList.isPrefixOf (c :: r) = true ∨ "Infinity".toList.isPrefixOf (c :: r) = true
          · rw [if_pos e4] at h; cases h
          · rw [if_neg e4] at h
            by_cases e5 : c = '-'
            · rw [if_pos e5] at h
              obtain ⟨i, t, rfl, h1, h2⟩ := number_sound h
              exact ⟨_, .int i _ h1, by rw [e5, h2]; simp⟩
            · rw [if_neg e5] at h
              obtain ⟨i, t, rfl, h1, h2⟩ := number_sound h
              exact ⟨_, .int i _ h1, by rw [h2]; simp⟩
    · intro s l rest h
      rw [jsonItems.eq_def] at h
      simp only at h
      obtain ⟨⟨j, r⟩, h1, h⟩ := load_bind h
      obtain ⟨t, ht, hs⟩ := ihv _ _ _ h1
      obtain ⟨w, hw, hr⟩ := skip_split r
      cases hk : skipWs r with
      | nil => simp only [hk] at h; cases h
      | cons c r' =>
        rw [hk] at hr
        simp only [hk] at h
        by_cases e1 : c = ','
        · rw [if_pos e1] at h
          obtain ⟨⟨l', rest'⟩, h2, h⟩ := load_bind h
          cases h
          obtain ⟨u, hu, hu'⟩ := ihi _ _ _ h2
          obtain ⟨w2, hw2, hr2⟩ := skip_split r'
          refine ⟨_, .item j [] t w l' _ (by intro _ h; cases h) ht hw (items_space hw2 hu), ?_⟩
          rw [hs, hr, e1, hr2, hu']; simp
        · rw [if_neg e1] at h
          by_cases e2 : c = ']'
          · rw [if_pos e2] at h
            cases h
            refine ⟨_, .lastItem j [] t w (by intro _ h; cases h) ht hw, ?_⟩
            rw [hs, hr, e2]; simp
          · rw [if_neg e2] at h; cases h
    · intro s l rest h
      rw [jsonMembers.eq_def] at h
      cases s with
      | nil => cases h
      | cons q s =>
        simp only at h
        by_cases e0 : q = '"'
        · rw [if_neg (by simpa using e0)] at h
          obtain ⟨⟨k, r0⟩, h0, h⟩ := load_bind h
          obtain ⟨x, hx, hs0⟩ := string_sound _ (Nat.le_refl _) h0
          obtain ⟨w1, hw1, hr1⟩ := skip_split r0
          cases hk0 : skipWs r0 with
          | nil => simp only [hk0] at h; cases h
          | cons c0 r1 =>
            rw [hk0] at hr1
            simp only [hk0] at h
            by_cases e : c0 = ':'
            · rw [if_neg (by simpa using e)] at h
              obtain ⟨⟨j, r⟩, h1, h⟩ := load_bind h
              obtain ⟨t, ht, hs⟩ := ihv _ _ _ h1
              obtain ⟨w2, hw2, hr2⟩ := skip_split r1
              obtain ⟨w, hw, hr⟩ := skip_split r
              cases hk : skipWs r with
              | nil => simp only [hk] at h; cases h
              | cons c r' =>
                rw [hk] at hr
                simp only [hk] at h
                by_cases e1 : c = ','
                · rw [if_pos e1] at h
                  obtain ⟨⟨l', rest'⟩, h2, h⟩ := load_bind h
                  cases h
                  obtain ⟨u, hu, hu'⟩ := ihm _ _ _ h2
                  obtain ⟨w3, hw3, hr3⟩ := skip_split r'
                  refine ⟨_, .member k x j [] w1 w2 t w l' _ (by intro _ h; cases h) hx hw1 hw2 ht hw (members_space hw3 hu), ?_⟩
                  rw [e0, hs0, hr1, e, hr2, hs, hr, e1, hr3, hu']; simp
                · rw [if_neg e1] at h
                  by_cases e2 : c = '}'
                  · rw [if_pos e2] at h
                    cases h
                    refine ⟨_, .lastMember k x j [] w1 w2 t w (by intro _ h; cases h) hx hw1 hw2 ht hw, ?_⟩
                    rw [e0, hs0, hr1, e, hr2, hs, hr, e2]; simp
                  · rw [if_neg e2] at h; cases h
            · rw [if_pos (by simpa using e)] at h; cases h
        · rw [if_pos (by simpa using e0)] at h; cases h

/-! ## Writing -/

theorem chars_append {v t v' t' : Str} (h : Chars v t) (h' : Chars v' t') : Chars (v ++ v') (t ++ t') := by
  induction h with
  | nil => exact h'
  | plain c v t h1 h2 h3 _ ih => exact .plain c _ _ h1 h2 h3 ih
  | escape e n v t h1 _ ih => exact .escape e n _ _ h1 ih
  | code a b c d n v t h1 h2 _ ih => exact .code a b c d n _ _ h1 h2 ih
  | pair a b c d a' b' c' d' n m v t h1 h2 h3 h4 _ ih => exact .pair a b c d a' b' c' d' n m _ _ h1 h2 h3 h4 ih

theorem hex_digitChar : ∀ n < 16, hexDigit (Nat.digitChar n) = some n := by decide +kernel

theorem escape_chars (c : Char) : Chars [c] (escapeChar c) := by
  unfold escapeChar
  by_cases e1 : c = '"'
  · rw [if_pos e1, e1]; exact .escape '"' 34 [] [] (by decide) .nil
  rw [if_neg e1]
  by_cases e2 : c = '\\'
  · rw [if_pos e2, e2]; exact .escape '\\' 92 [] [] (by decide) .nil
  rw [if_neg e2]
  by_cases e3 : c = '\n'
  · rw [if_pos e3, e3]; exact .escape 'n' 10 [] [] (by decide) .nil
  rw [if_neg e3]
  by_cases e4 : c = '\r'
  · rw [if_pos e4, e4]; exact .escape 'r' 13 [] [] (by decide) .nil
  rw [if_neg e4]
  by_cases e5 : c = '\t'
  · rw [if_pos e5, e5]; exact .escape 't' 9 [] [] (by decide) .nil
  rw [if_neg e5]
  by_cases e6 : c.toNat = 12
  · rw [if_pos e6, ← Char.ofNat_toNat c, e6]; exact .escape 'f' 12 [] [] (by decide) .nil
  rw [if_neg e6]
  by_cases e7 : c.toNat = 8
  · rw [if_pos e7, ← Char.ofNat_toNat c, e7]; exact .escape 'b' 8 [] [] (by decide) .nil
  rw [if_neg e7]
  by_cases e8 : c.toNat < 32
  · rw [if_pos e8]
    have := Chars.code '0' '0' (Nat.digitChar (c.toNat / 16)) (Nat.digitChar (c.toNat % 16)) c.toNat [] []
      ⟨0, 0, c.toNat / 16, c.toNat % 16, by decide, by decide, hex_digitChar _ (by omega), hex_digitChar _ (by omega), by omega⟩ (by omega) .nil
    rwa [Char.ofNat_toNat] at this
  · rw [if_neg e8]
    exact .plain c [] [] (by omega) e1 e2 .nil

theorem quoted_chars (s : Str) : Chars s (s.flatMap escapeChar) := by
  induction s with
  | nil => exact .nil
  | cons c s ih => exact chars_append (escape_chars c) ih

theorem natStr_zero {n : Nat} {r : Str} (h : natStr n = '0' :: r) : r = [] := by
  induction n using Nat.strongRecOn generalizing r with
  | _ n ih =>
    unfold natStr at h
    rw [Nat.toDigits_eq_if (by decide)] at h
    by_cases e : n < 10
    · rw [if_pos e] at h
      injection h with _ h
      exact h.symm
    · rw [if_neg e] at h
      cases hq : Nat.toDigits 10 (n / 10) with
      | nil => exact absurd hq (natStr_ne_nil _)
      | cons c q =>
        rw [hq, List.cons_append] at h
        injection h with h1 h2
        subst h1
        have := ih (n / 10) (by omega) hq
        subst this
        have h3 : digVal (natStr (n / 10)) = 0 := by
          show digVal (Nat.toDigits 10 (n / 10)) = 0
          rw [hq]; rfl
        rw [digVal_natStr] at h3
        omega

theorem whole_intStr (i : Int) : Whole i (intStr i) := by
  refine ⟨natStr i.natAbs, natStr_ne_nil _, fun c hc => dig_iff.1 (natStr_digits _ c hc), fun r h => natStr_zero h, ?_⟩
  rw [← digVal_eq, digVal_natStr]
  unfold intStr
  by_cases h : i < 0
  · rw [if_pos h]; exact .inr ⟨rfl, by omega⟩
  · rw [if_neg h]; exact .inl ⟨rfl, by omega⟩

theorem dictOf_nodup {l : List (Str × Json)} (h : (l.map fun p => String.ofList p.1).Nodup) : dictOf l = l.map fun p => (String.ofList p.1, p.2) := by
  induction l with
  | nil => rfl
  | cons p l ih =>
    obtain ⟨k, v⟩ := p
    rw [List.map_cons, List.nodup_cons] at h
    rw [dictOf_cons, ih h.2]
    have hn : ∀ q ∈ l.map (fun p => (String.ofList p.1, p.2)), q.1 ≠ String.ofList k := by
      intro q hq e
      obtain ⟨x, hx, rfl⟩ := List.mem_map.1 hq
      exact h.1 (List.mem_map.2 ⟨x, hx, e⟩)
    rw [jget_none.2 hn, List.filter_eq_self.2 (fun q hq => decide_eq_true (hn q hq))]
    rfl

theorem nl_space : Space ['\n'] := by intro c hc; rw [List.mem_singleton.1 hc]; decide
theorem one_space : Space [' '] := by intro c hc; rw [List.mem_singleton.1 hc]; decide
theorem no_space : Space [] := by intro _ h; cases h

mutual
theorem dumps_written : ∀ j : Json, Proper j → Notation (.value j) j.dumps
  | .null, _ => .null
  | .bool true, _ => .true
  | .bool false, _ => .false
  | .int i, _ => .int i _ (whole_intStr i)
  | .str s, _ => by
    have := Notation.str s _ (quoted_chars s)
    simpa [Json.dumps, quoted] using this
  | .arr [], _ => .noItems [] no_space
  | .arr (j :: l), h => by
    have := Notation.arr _ _ (items_written j l h.1 h.2)
    simpa [Json.dumps] using this
  | .obj [], _ => .noMembers [] no_space
  | .obj (p :: l), h => by
    have h1 := Notation.obj _ _ (members_written p l h.2.1 h.2.2)
    rw [dictOf_nodup] at h1
    · simpa [Json.dumps, quoted, List.map_map, Function.comp_def] using h1
    · simpa [List.map_map, Function.comp_def] using h.1
  | .ver _, h => h.elim
  termination_by j => sizeOf j
  decreasing_by all_goals (simp; try omega)
theorem items_written : ∀ (j : Json) (l : List Json), Proper j → ProperAll l → Notation (.items (j :: l)) ('\n' :: (j.dumps ++ Json.dumps.dumpsMore l ++ ['\n']))
  | j, [], h, _ => by
    have := Notation.lastItem j ['\n'] _ ['\n'] nl_space (dumps_written j h) nl_space
    simpa [Json.dumps.dumpsMore] using this
  | j, k :: l, h, h' => by
    have := Notation.item j ['\n'] _ [] _ _ nl_space (dumps_written j h) no_space (items_written k l h'.1 h'.2)
    simpa [Json.dumps.dumpsMore] using this
  termination_by j l => sizeOf j + sizeOf l
  decreasing_by all_goals (simp; try omega)
theorem members_written : ∀ (p : String × Json) (l : List (String × Json)), Proper p.2 → ProperFields l →
    Notation (.members ((p :: l).map fun q => (q.1.toList, q.2)))
      ('\n' :: (quoted p.1.toList ++ ": ".toList ++ p.2.dumps ++ Json.dumps.dumpsFields l ++ ['\n']))
  | (k, j), [], h, _ => by
    have := Notation.lastMember k.toList _ j ['\n'] [] [' '] _ ['\n'] nl_space (quoted_chars _) no_space one_space (dumps_written j h) nl_space
    simpa [Json.dumps.dumpsFields, quoted] using this
  | (k, j), q :: l, h, h' => by
    have := Notation.member k.toList _ j ['\n'] [] [' '] _ [] _ _ nl_space (quoted_chars _) no_space one_space (dumps_written j h) no_space (members_written q l h'.1 h'.2)
    simpa [Json.dumps.dumpsFields, quoted] using this
  termination_by p l => sizeOf p + sizeOf l
  decreasing_by all_goals (simp; try omega)
end

/-! ## C122 -/

/-- **C122**. `json_loads` gives a value exactly for the JSON texts of that value. -/
theorem C122_loads (s : Str) (j : Json) : jsonLoads s = .ok j ↔ JsonText j s := by
  constructor
  · intro h
    obtain ⟨⟨j', rest⟩, h1, h⟩ := load_bind h
    simp only at h
    by_cases e : skipWs rest = []
    · rw [if_pos e] at h
      cases h
      obtain ⟨w, hw, hs⟩ := skip_split s
      obtain ⟨t, ht, hs'⟩ := (parse_sound _).1 _ _ _ h1
      exact ⟨w, t, rest, hw, ht, skip_nil e, by rw [List.append_assoc, ← hs']; exact hs⟩
    · rw [if_neg e] at h; cases h
  · rintro ⟨w, t, w', hw, ht, hw', rfl⟩
    have h1 : skipWs (w ++ t ++ w') = t ++ w' := by rw [List.append_assoc, skip_space hw, skip_written ht]
    have h2 : Stops w' := by have := stops_space hw' stops_nil; rwa [List.append_nil] at this
    unfold jsonLoads
    rw [h1, understands ht _ w' (by simp only [List.length_append]; omega) h2]
    show (if skipWs w' = [] then _ else _) = _
    rw [if_pos]
    · rfl
    · have := skip_space hw' []; rwa [List.append_nil] at this

/-- **C122**. A text stands for one value at most. -/
theorem C122_unique (s : Str) (j k : Json) (h : JsonText j s) (h' : JsonText k s) : j = k := by
  have := (C122_loads s j).2 h
  rw [(C122_loads s k).2 h'] at this
  exact (Except.ok.inj this).symm

/-- **C122**. What `json_dumps` writes is a JSON text of what it was given. -/
theorem C122_dumps (j : Json) (h : Proper j) : JsonText j j.dumps :=
  ⟨[], j.dumps, [], no_space, dumps_written j h, no_space, by simp⟩

theorem proper_all {l : List Json} : ProperAll l ↔ ∀ j ∈ l, Proper j := by
  induction l with
  | nil => simp [ProperAll]
  | cons j l ih => simp [ProperAll, ih]

theorem proper_fields {l : List (String × Json)} : ProperFields l ↔ ∀ p ∈ l, Proper p.2 := by
  induction l with
  | nil => simp [ProperFields]
  | cons j l ih => simp [ProperFields, ih]

theorem dictOf_proper (l : List (Str × Json)) : ((dictOf l).map Prod.fst).Nodup ∧ ∀ p ∈ dictOf l, ∃ q ∈ l, p.2 = q.2 := by
  induction l with
  | nil => simp [dictOf]
  | cons q l ih =>
    obtain ⟨k, v⟩ := q
    rw [dictOf_cons]
    constructor
    · rw [List.map_cons, List.nodup_cons]
      refine ⟨?_, ih.1.sublist (List.filter_sublist.map _)⟩
      intro h
      obtain ⟨p, hp, he⟩ := List.mem_map.1 h
      have := (List.mem_filter.1 hp).2
      simp [he] at this
    · intro p hp
      rcases List.mem_cons.1 hp with rfl | hp
      · cases hj : jget (dictOf l) (String.ofList k) with
        | none => exact ⟨(k, v), by simp, rfl⟩
        | some w =>
          obtain ⟨x, hx, hw⟩ := Option.map_eq_some_iff.1 hj
          obtain ⟨q, hq, e⟩ := ih.2 x (List.mem_of_find?_eq_some hx)
          exact ⟨q, List.mem_cons_of_mem _ hq, by rw [← e, hw]; rfl⟩
      · obtain ⟨q, hq, e⟩ := ih.2 p (List.mem_of_mem_filter hp)
        exact ⟨q, List.mem_cons_of_mem _ hq, e⟩

/-- What a written form is made of. -/
def Form.proper : Form → Prop
  | .value j => Proper j
  | .items l => ∀ j ∈ l, Proper j
  | .members l => ∀ p ∈ l, Proper p.2

theorem written_proper {F : Form} {t : Str} (h : Notation F t) : Form.proper F := by
  induction h with
  | null => trivial
  | true => trivial
  | false => trivial
  | int => trivial
  | str => trivial
  | noItems => trivial
  | arr l t _ ih => exact proper_all.2 ih
  | noMembers => exact ⟨List.nodup_nil, trivial⟩
  | obj l t _ ih =>
    refine ⟨(dictOf_proper l).1, proper_fields.2 ?_⟩
    intro p hp
    obtain ⟨q, hq, e⟩ := (dictOf_proper l).2 p hp
    rw [e]; exact ih q hq
  | lastItem j w t w' _ _ _ ih => intro x hx; rw [List.mem_singleton.1 hx]; exact ih
  | item j w t w' l u _ _ _ _ ih ih' =>
    intro x hx
    rcases List.mem_cons.1 hx with rfl | hx
    · exact ih
    · exact ih' x hx
  | lastMember k n j w w1 w2 t w' _ _ _ _ _ _ ih => intro x hx; rw [List.mem_singleton.1 hx]; exact ih
  | member k n j w w1 w2 t w' l u _ _ _ _ _ _ _ ih ih' =>
    intro x hx
    rcases List.mem_cons.1 hx with rfl | hx
    · exact ih
    · exact ih' x hx

/-- **C122**. Only such values can be read: in what is read no object has two members of the same name. -/
theorem C122_proper (j : Json) (s : Str) (h : JsonText j s) : Proper j := by
  obtain ⟨w, t, w', _, h, _⟩ := h
  exact written_proper h

/-- **C122**. … so reading gives it back. -/
theorem C122_roundtrip (j : Json) (h : Proper j) : jsonLoads j.dumps = .ok j := (C122_loads _ _).2 (C122_dumps j h)

theorem decode_iff {b : Bytes} {s : Str} : decodeUtf8 b = some s ↔ b = utf8 s := by
  have hb : ∀ s : Str, (String.ofList s).toByteArray = ⟨(utf8 s).toArray⟩ := by
    intro s
    rw [String.toByteArray_ofList]
    unfold List.utf8Encode utf8
    generalize s.flatMap String.utf8EncodeChar = l
    apply ByteArray.ext
    simp
  unfold decodeUtf8 String.fromUTF8?
  constructor
  · intro h
    by_cases e : ByteArray.IsValidUTF8 ⟨b.toArray⟩
    · rw [dif_pos e] at h
      have h1 : (String.fromUTF8 _ e) = String.ofList s := by
        have := Option.some.inj h
        rw [← this, String.ofList_toList]
      have h2 : (String.fromUTF8 _ e).toByteArray = ⟨b.toArray⟩ := rfl
      rw [h1, hb] at h2
      have := congrArg (fun x : ByteArray => x.data.toList) h2
      simpa using this.symm
    · rw [dif_neg e] at h; cases h
  · rintro rfl
    have e : ByteArray.IsValidUTF8 ⟨(utf8 s).toArray⟩ := by rw [← hb]; exact (String.ofList s).isValidUTF8
    rw [dif_pos e]
    have : String.fromUTF8 _ e = String.ofList s := by
      apply String.toByteArray_inj.1
      rw [hb]; rfl
    rw [this]
    simp

/-- **C122**. The same for bytes: they have a value when they are the UTF-8 of a text of that value. -/
theorem C122_bytes (b : Bytes) (j : Json) : jsonLoadsBytes b = .ok j ↔ ∃ s, b = utf8 s ∧ JsonText j s := by
  unfold jsonLoadsBytes
  constructor
  · intro h
    cases hd : decodeUtf8 b with
    | none => rw [hd] at h; cases h
    | some s => rw [hd] at h; exact ⟨s, decode_iff.1 hd, (C122_loads s j).1 h⟩
  · rintro ⟨s, hb, h⟩
    rw [decode_iff.2 hb]
    exact (C122_loads s j).2 h

/-- **C122**. A transaction given as text is read as the value the text stands for, however the text is laid out. -/
theorem C122_transaction (L : IpLib) (H : Bytes → Bytes) (s : Str) (j : Json) (h : JsonText j s) : Tx.fromText L H s = some (Tx.fromJson L H j) := by
  unfold Tx.fromText
  rw [(C122_loads s j).2 h]

/-- **C122**. … and a transaction is only ever read from a JSON text. -/
theorem C122_transaction_text (L : IpLib) (H : Bytes → Bytes) (s : Str) (t : Tx) (h : Tx.fromText L H s = some (.ok t)) :
    ∃ j, JsonText j s ∧ Tx.fromJson L H j = .ok t := by
  unfold Tx.fromText at h
  cases hs : jsonLoads s with
  | ok j => rw [hs] at h; exact ⟨j, (C122_loads s j).1 hs, Option.some.inj h⟩
  | error e => rw [hs] at h; cases e <;> cases h

theorem newline_byte {c : Char} (h : (10 : UInt8) ∈ String.utf8EncodeChar c) : c = '\n' := by
  unfold String.utf8EncodeChar at h
  have hc : c.val.toNat < 0x110000 := by
    have := c.valid
    simp only [UInt32.isValidChar, Nat.isValidChar] at this
    omega
  have key : ∀ n : Nat, n < 256 → (10 : UInt8) = UInt8.ofNat n → n = 10 := by decide +kernel
  simp only at h
  have hn : c.val.toNat = 10 := by
    by_cases e1 : c.val.toNat ≤ 0x7f
    · rw [if_pos e1] at h
      exact key _ (by omega) (by simpa using h)
    · rw [if_neg e1] at h
      by_cases e2 : c.val.toNat ≤ 0x7ff
      · rw [if_pos e2] at h
        simp only [List.mem_cons, List.not_mem_nil, or_false] at h
        rcases h with h | h
        · have := key _ (by omega) h; omega
        · have := key _ (by omega) h; omega
      · rw [if_neg e2] at h
        by_cases e3 : c.val.toNat ≤ 0xffff
        · rw [if_pos e3] at h
          simp only [List.mem_cons, List.not_mem_nil, or_false] at h
          rcases h with h | h | h
          · have := key _ (by omega) h; omega
          · have := key _ (by omega) h; omega
          · have := key _ (by omega) h; omega
        · rw [if_neg e3] at h
          simp only [List.mem_cons, List.not_mem_nil, or_false] at h
          rcases h with h | h | h | h
          · have := key _ (by omega) h; omega
          · have := key _ (by omega) h; omega
          · have := key _ (by omega) h; omega
          · have := key _ (by omega) h; omega
  have : c.toNat = 10 := hn
  rw [← Char.ofNat_toNat c, this]

theorem readLine_plain : ∀ {b r : Bytes}, (10 : UInt8) ∉ b → readLine (b ++ r) = b ++ readLine r
  | [], _, _ => rfl
  | x :: b, r, h => by
    rw [List.cons_append, readLine, if_neg (by rintro rfl; simp at h), readLine_plain (by intro hh; exact h (List.mem_cons_of_mem _ hh))]
    rfl

theorem utf8_append (s t : Str) : utf8 (s ++ t) = utf8 s ++ utf8 t := by simp [utf8]

theorem no_newline {s : Str} (h : '\n' ∉ s) : (10 : UInt8) ∉ utf8 s := by
  intro hh
  obtain ⟨c, hc, hc'⟩ := List.mem_flatMap.1 hh
  exact h (newline_byte hc' ▸ hc)

/-- **C122** (what holds). The answer of an explorer that is written on one line is understood, whatever follows that line. -/
theorem C122_answer_partial (s : Str) (j : Json) (h : JsonText j s) (hs : OneLine s) :
    answerValue (utf8 s) = .ok j ∧ ('\n' ∈ s → ∀ more, answerValue (utf8 s ++ more) = .ok j) := by
  obtain ⟨l, hl, rfl | rfl⟩ := hs
  · refine ⟨?_, fun hh => absurd hh hl⟩
    unfold answerValue
    have := readLine_plain (r := []) (no_newline hl)
    rw [List.append_nil] at this
    rw [this, show readLine [] = [] from rfl, List.append_nil]
    exact (C122_bytes _ _).2 ⟨_, rfl, h⟩
  · have key : ∀ more, readLine (utf8 (l ++ ['\n']) ++ more) = utf8 (l ++ ['\n']) := by
      intro more
      rw [utf8_append, List.append_assoc, readLine_plain (no_newline hl)]
      rfl
    have : ∀ more, answerValue (utf8 (l ++ ['\n']) ++ more) = .ok j := by
      intro more
      unfold answerValue
      rw [key]
      exact (C122_bytes _ _).2 ⟨_, rfl, h⟩
    exact ⟨by have := this []; rwa [List.append_nil] at this, fun _ => this⟩

/-- **C122** (finding). An answer laid out over several lines is not: a client reads the first line only. What the library's own `json_dumps` writes for a list or
an object with anything in it is JSON, and is refused when an explorer answers with it. -/
theorem C122_answer_false (j : Json) (l : List Json) (p : String × Json) (m : List (String × Json)) :
    (Proper (.arr (j :: l)) → JsonText (.arr (j :: l)) (Json.arr (j :: l)).dumps) ∧ answerValue (utf8 (Json.arr (j :: l)).dumps) = .error .refused ∧
    (Proper (.obj (p :: m)) → JsonText (.obj (p :: m)) (Json.obj (p :: m)).dumps) ∧ answerValue (utf8 (Json.obj (p :: m)).dumps) = .error .refused := by
  refine ⟨C122_dumps _, ?_, C122_dumps _, ?_⟩
  · have h1 : (Json.arr (j :: l)).dumps = ['['] ++ ['\n'] ++ (j.dumps ++ Json.dumps.dumpsMore l ++ "\n]".toList) := by simp [Json.dumps]
    unfold answerValue jsonLoadsBytes
    rw [h1, utf8_append, utf8_append, List.append_assoc, readLine_plain (by decide)]
    have : utf8 ['['] ++ readLine (utf8 ['\n'] ++ utf8 (j.dumps ++ Json.dumps.dumpsMore l ++ "\n]".toList)) = utf8 ['[', '\n'] := rfl
    rw [this, decode_iff.2 rfl]
    rfl
  · obtain ⟨k, v⟩ := p
    have h1 : (Json.obj ((k, v) :: m)).dumps = ['{'] ++ ['\n'] ++ (quoted k.toList ++ ": ".toList ++ v.dumps ++ Json.dumps.dumpsFields m ++ "\n}".toList) := by
      simp [Json.dumps]
    unfold answerValue jsonLoadsBytes
    rw [h1, utf8_append, utf8_append, List.append_assoc, readLine_plain (by decide)]
    have : utf8 ['{'] ++ readLine (utf8 ['\n'] ++ utf8 (quoted k.toList ++ ": ".toList ++ v.dumps ++ Json.dumps.dumpsFields m ++ "\n}".toList)) = utf8 ['{', '\n'] := rfl
    rw [this, decode_iff.2 rfl]
    rfl

mutual
theorem plain_serialisable : ∀ j : Json, Proper j → j.serialisable = true
  | .null, _ => rfl
  | .bool _, _ => rfl
  | .int _, _ => rfl
  | .str _, _ => rfl
  | .arr l, h => by
    rw [Json.serialisable]
    exact all_serialisable l h
  | .obj l, h => by
    rw [Json.serialisable]
    exact fields_serialisable l h.2
  | .ver _, h => h.elim
theorem all_serialisable : ∀ l : List Json, ProperAll l → Json.serialisable.serialisableList l = true
  | [], _ => rfl
  | j :: l, h => by
    rw [Json.serialisable.serialisableList, plain_serialisable j h.1, all_serialisable l h.2, Bool.and_self]
theorem fields_serialisable : ∀ l : List (String × Json), ProperFields l → Json.serialisable.serialisableFields l = true
  | [], _ => rfl
  | (_, j) :: l, h => by
    rw [Json.serialisable.serialisableFields, plain_serialisable j h.1, fields_serialisable l h.2, Bool.and_self]
end

/-- **C122**. A transaction posted as a dict arrives at the explorer as the UTF-8 of a JSON text of that dict; and when the explorer answers on one line with an
object that names the transaction, that name is returned. -/
theorem C122_submit (P : Poster) (hd : P.dumps = Json.dumps) (hl : ∀ b j, jsonLoadsBytes b = .ok j → P.loads b = .ok j) (order : List Str)
    (ho : P.order = order.map some) (j : Json) (hj : Proper j) :
    ∃ s, JsonText j s ∧ ∀ before a text resp id, Reached P (utf8 s) order before a (readLine (utf8 text)) → JsonText resp text → OneLine text →
      NamesTransaction resp id → P.put (.data (.dict j)) = (before ++ [a], .ok id) := by
  refine ⟨j.dumps, C122_dumps j hj, ?_⟩
  intro before a text resp id hr ht h1 hn
  have he : (PostData.dict j).encode P.dumps = .ok (utf8 j.dumps) := by
    rw [PostData.encode, if_pos (plain_serialisable j hj), hd]
  exact (C105_submit_partial P order ho _ _ he).1 before a _ resp id hr (hl _ _ (C122_answer_partial text resp ht h1).1) hn

/-- **C122**. What a client takes for the answer is what the first reachable explorer wrote. -/
theorem C122_get (ask : Str → Reply) (order : List Address) (endpoint : Str) (j : Json) :
    fetchJson ask order endpoint = some (.ok j) ↔
      ∃ a s, FirstReachable (fun x => ask (x ++ endpoint)) order a ∧ ask (a ++ endpoint) = .answer 200 (utf8 s) ∧ JsonText j s := by
  unfold fetchJson
  constructor
  · intro h
    cases hg : explorerGet decodeUtf8 (fun a => ask (a ++ endpoint)) order with
    | error e => rw [hg] at h; cases h
    | ok line =>
      rw [hg] at h
      simp only at h
      obtain ⟨a, h1, h2⟩ := (C60_get_answer _ _ _ _).1 hg
      cases hl : jsonLoadsBytes line with
      | error e => rw [hl] at h; cases e <;> cases h
      | ok k =>
        rw [hl] at h
        cases h
        obtain ⟨s, rfl, hs⟩ := (C122_bytes _ _).1 hl
        exact ⟨a, s, h1, h2, hs⟩
  · rintro ⟨a, s, h1, h2, h3⟩
    rw [(C60_get_answer decodeUtf8 _ order (utf8 s)).2 ⟨a, h1, h2⟩]
    simp only
    rw [(C122_bytes _ j).2 ⟨s, rfl, h3⟩]

/-- **C122**. When every explorer is unreachable or serves what there is to know, and one is reachable, a client knows exactly that. -/
theorem C122_client (ask : Str → Reply) (knows : Str → Option Json) (addresses : List Str) (order : List Address) (hp : order.Perm (addresses.map some)) (endpoint : Str)
    (hall : ∀ a ∈ addresses, ask (a ++ endpoint) = .unreachable ∨ Serves ask knows a) (hone : ∃ a ∈ addresses, ask (a ++ endpoint) ≠ .unreachable) :
    fetchJson ask order endpoint = some (match knows endpoint with | some j => .ok j | none => .error .explorerNoContent) := by
  obtain ⟨b, hb, hr⟩ := hone
  obtain ⟨a, ha⟩ : ∃ a, FirstReachable (fun x => ask (x ++ endpoint)) order a := by
    rcases order_cases (fun x => ask (x ++ endpoint)) order with hu | h | ⟨before, after, rfl, _⟩
    · obtain ⟨s, e, hs⟩ := hu (some b) (hp.symm.subset (List.mem_map.2 ⟨b, hb, rfl⟩))
      cases e
      exact absurd hs hr
    · exact h
    · have : (none : Address) ∈ addresses.map some := hp.subset (by simp)
      obtain ⟨x, _, hx⟩ := List.mem_map.1 this
      cases hx
  have hm : a ∈ addresses := by
    obtain ⟨before, after, rfl, _⟩ := ha
    have : some a ∈ addresses.map some := hp.subset (by simp)
    obtain ⟨x, hx, e⟩ := List.mem_map.1 this
    cases e; exact hx
  have hs : Serves ask knows a := by
    rcases hall a hm with h | h
    · obtain ⟨_, _, _, _, hn⟩ := ha
      exact absurd h hn
    · exact h
  have hs := hs endpoint
  cases hk : knows endpoint with
  | some j =>
    rw [hk] at hs
    obtain ⟨s, h1, h0, h2⟩ := hs
    obtain ⟨s', h3, h4⟩ := (C122_bytes _ _).1 (C122_answer_partial s j h1 h0).1
    rw [h3] at h2
    exact (C122_get ask order endpoint j).2 ⟨a, s', ha, h2, h4⟩
  | none =>
    rw [hk] at hs
    unfold fetchJson
    rw [(C60_get_refused decodeUtf8 _ order).1.2 ⟨a, ha, hs⟩]

/-- A small transaction, as a node would write it, with a character given by its code and one member given twice. -/
def jsonDemo : Str := "{ \"version\":1,\n\"data\":{\"a\":[-7,0 ,true,null,[]],\"\\u0061b\":\"\\n\\ud83d\\ude00/\\/\"},\"version\" : 2}\n".toList
@[inherit_doc jsonDemo] def jsonDemoValue : Json :=
  .obj [("version", .int 2), ("data", .obj [("a", .arr [.int (-7), .int 0, .bool true, .null, .arr []]), ("ab", .str ['\n', '😀', '/', '/'])])]

theorem json_of_dumps {s : Str} {j : Json} (hj : Proper j) (h : (jsonLoads s).map Json.dumps = .ok j.dumps) : JsonText j s := by
  cases hs : jsonLoads s with
  | error e => rw [hs] at h; cases h
  | ok k =>
    rw [hs] at h
    have hk := (C122_loads s k).1 hs
    have : k = j := by
      have h1 := C122_roundtrip k (C122_proper k s hk)
      rw [show k.dumps = j.dumps from Except.ok.inj h, C122_roundtrip j hj] at h1
      exact (Except.ok.inj h1).symm
    rwa [← this]

theorem jsonDemo_proper : Proper jsonDemoValue := by
  simp [jsonDemoValue, Proper, ProperAll, ProperFields]

/-- A text with its value. -/
example : JsonText jsonDemoValue jsonDemo := json_of_dumps jsonDemo_proper (by decide +kernel)

theorem not_json {s : Str} (h : ((jsonLoads s).map Json.dumps).toOption = none) : ∀ j, ¬ JsonText j s := by
  intro j hj
  rw [(C122_loads s j).2 hj] at h
  cases h

/-- Not JSON: a superfluous zero, a comma too many, a missing quote, a single value followed by another, no value. -/
example : (∀ j, ¬ JsonText j "01".toList) ∧ (∀ j, ¬ JsonText j "[1,]".toList) ∧ (∀ j, ¬ JsonText j "\"a".toList) ∧ (∀ j, ¬ JsonText j "1 2".toList) ∧
    ∀ j, ¬ JsonText j [] :=
  ⟨not_json (by decide +kernel), not_json (by decide +kernel), not_json (by decide +kernel), not_json (by decide +kernel), not_json (by decide +kernel)⟩

/-- What `json_dumps` writes for it. -/
example : jsonDemoValue.dumps =
    "{\n\"version\": 2,\n\"data\": {\n\"a\": [\n-7,\n0,\ntrue,\nnull,\n[]\n],\n\"ab\": \"\\n😀//\"\n}\n}".toList := by decide +kernel

/-- An answer on one line. -/
example : ∃ j, JsonText j "{\"height\":5}\n".toList ∧ OneLine "{\"height\":5}\n".toList ∧ j = .obj [("height", .int 5)] :=
  ⟨_, json_of_dumps (j := .obj [("height", .int 5)]) (by simp [Proper, ProperFields]) (by decide +kernel), ⟨"{\"height\":5}".toList, by decide, .inr (by decide)⟩, rfl⟩

/-- Two explorers, one of them down, the other with one thing to tell. -/
def tellsHeight (url : Str) : Reply :=
  if url = "b/h".toList then .answer 200 (readLine (utf8 "{\"height\":5}\n".toList)) else if url.take 1 = ['a'] then .unreachable else .answer 204 []

example : let knows := fun e : Str => if e = "/h".toList then some (Json.obj [("height", .int 5)]) else none
    (∀ e, tellsHeight ("a".toList ++ e) = .unreachable) ∧ Serves tellsHeight knows "b".toList ∧ tellsHeight ("b".toList ++ "/h".toList) ≠ .unreachable := by
  refine ⟨fun e => ?_, fun e => ?_, by decide⟩
  · unfold tellsHeight
    rw [if_neg (by intro h; have := congrArg (List.take 1) h; revert this; simp), if_pos (by simp)]
  · by_cases h : e = "/h".toList
    · simp only [if_pos h]
      refine ⟨"{\"height\":5}\n".toList, json_of_dumps (by simp [Proper, ProperFields]) (by decide +kernel), ⟨"{\"height\":5}".toList, by decide, .inr (by decide)⟩, ?_⟩
      rw [h]; rfl
    · simp only [if_neg h]
      unfold tellsHeight
      rw [if_neg (by intro h'; apply h; have := congrArg (List.drop 1) h'; simpa using this), if_neg (by simp)]
      rfl

end TF.Props
