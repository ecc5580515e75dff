import Verif.Model.Json
import Verif.Model.JsonText
import Verif.Spec.Explorer
/-! # The grammar of JSON texts (RFC 8259), with the value a text stands for

Numbers with a fraction or an exponent are left out, as the values of the model have no such numbers. -/
namespace TF.Spec

/-- White space. -/
def Space (t : Str) : Prop := ∀ c ∈ t, c = ' ' ∨ c = '\t' ∨ c = '\n' ∨ c = '\r'

/-- The value of a hexadecimal digit. -/
def hexDigit (c : Char) : Option Nat := ((List.range 16).zip "0123456789abcdef".toList ++ (List.range 16).zip "0123456789ABCDEF".toList).findSome? fun p =>
  if p.2 = c then some p.1 else none

/-- The value of four hexadecimal digits. -/
def Hex (a b c d : Char) (n : Nat) : Prop := ∃ i j k l, hexDigit a = some i ∧ hexDigit b = some j ∧ hexDigit c = some k ∧ hexDigit d = some l ∧
  n = i * 16 ^ 3 + j * 16 ^ 2 + k * 16 + l

/-- What a backslash and one more character stand for. -/
def escapes : List (Char × Nat) := [('"', 34), ('\\', 92), ('/', 47), ('b', 8), ('f', 12), ('n', 10), ('r', 13), ('t', 9)]

/-- The characters, and how they may be written between quotes. -/
inductive Chars : Str → Str → Prop
  | nil : Chars [] []
  | plain (c : Char) (v t : Str) (visible : 32 ≤ c.toNat) (quote : c ≠ '"') (backslash : c ≠ '\\') (more : Chars v t) : Chars (c :: v) (c :: t)
  | escape (e : Char) (n : Nat) (v t : Str) (known : (e, n) ∈ escapes) (more : Chars v t) : Chars (Char.ofNat n :: v) ('\\' :: e :: t)
  | code (a b c d : Char) (n : Nat) (v t : Str) (hex : Hex a b c d n) (whole : n < 0xd800 ∨ 0xdfff < n) (more : Chars v t) :
      Chars (Char.ofNat n :: v) ('\\' :: 'u' :: a :: b :: c :: d :: t)
  | pair (a b c d a' b' c' d' : Char) (n m : Nat) (v t : Str) (hex : Hex a b c d n) (hex' : Hex a' b' c' d' m) (high : 0xd800 ≤ n ∧ n ≤ 0xdbff)
      (low : 0xdc00 ≤ m ∧ m ≤ 0xdfff) (more : Chars v t) :
      Chars (Char.ofNat (0x10000 + (n - 0xd800) * 0x400 + (m - 0xdc00)) :: v) ('\\' :: 'u' :: a :: b :: c :: d :: '\\' :: 'u' :: a' :: b' :: c' :: d' :: t)

/-- The number with these digits. -/
def digitsValue (ds : Str) : Nat := ds.foldl (fun n c => 10 * n + (c.toNat - 48)) 0

/-- A whole number: digits without superfluous zeros, with or without a minus. -/
def Whole (i : Int) (t : Str) : Prop :=
  ∃ ds : Str, ds ≠ [] ∧ (∀ c ∈ ds, 48 ≤ c.toNat ∧ c.toNat ≤ 57) ∧ (∀ r, ds = '0' :: r → r = []) ∧
    ((t = ds ∧ i = digitsValue ds) ∨ (t = '-' :: ds ∧ i = -(digitsValue ds : Int)))

/-- The members of an object: of those with the same name the last counts, in the place of the first. -/
def dictOf : List (Str × Json) → List (String × Json)
  | [] => []
  | (k, v) :: l => match jget (dictOf l) (String.ofList k) with
    | none => (String.ofList k, v) :: dictOf l
    | some w => (String.ofList k, w) :: (dictOf l).filter fun p => p.1 ≠ String.ofList k

/-- What a piece of text may stand for: a value, the elements of a list, the members of an object. -/
inductive Form
  | value (j : Json)
  | items (l : List Json)
  | members (l : List (Str × Json))

/-- The text is written as JSON. -/
inductive Notation : Form → Str → Prop
  | null : Notation (.value .null) "null".toList
  | true : Notation (.value (.bool true)) "true".toList
  | false : Notation (.value (.bool false)) "false".toList
  | int (i : Int) (t : Str) (number : Whole i t) : Notation (.value (.int i)) t
  | str (v t : Str) (chars : Chars v t) : Notation (.value (.str v)) ('"' :: t ++ ['"'])
  | noItems (w : Str) (space : Space w) : Notation (.value (.arr [])) ('[' :: w ++ [']'])
  | arr (l : List Json) (t : Str) (items : Notation (.items l) t) : Notation (.value (.arr l)) ('[' :: t ++ [']'])
  | noMembers (w : Str) (space : Space w) : Notation (.value (.obj [])) ('{' :: w ++ ['}'])
  | obj (l : List (Str × Json)) (t : Str) (members : Notation (.members l) t) : Notation (.value (.obj (dictOf l))) ('{' :: t ++ ['}'])
  | lastItem (j : Json) (w t w' : Str) (before : Space w) (value : Notation (.value j) t) (after : Space w') : Notation (.items [j]) (w ++ t ++ w')
  | item (j : Json) (w t w' : Str) (l : List Json) (u : Str) (before : Space w) (value : Notation (.value j) t) (after : Space w') (more : Notation (.items l) u) :
      Notation (.items (j :: l)) (w ++ t ++ w' ++ [','] ++ u)
  | lastMember (k n : Str) (j : Json) (w w1 w2 t w' : Str) (before : Space w) (name : Chars k n) (space : Space w1) (space' : Space w2) (value : Notation (.value j) t)
      (after : Space w') : Notation (.members [(k, j)]) (w ++ ['"'] ++ n ++ ['"'] ++ w1 ++ [':'] ++ w2 ++ t ++ w')
  | member (k n : Str) (j : Json) (w w1 w2 t w' : Str) (l : List (Str × Json)) (u : Str) (before : Space w) (name : Chars k n) (space : Space w1) (space' : Space w2)
      (value : Notation (.value j) t) (after : Space w') (more : Notation (.members l) u) :
      Notation (.members ((k, j) :: l)) (w ++ ['"'] ++ n ++ ['"'] ++ w1 ++ [':'] ++ w2 ++ t ++ w' ++ [','] ++ u)

/-- A JSON text: a value, with white space around it. -/
def JsonText (j : Json) (s : Str) : Prop := ∃ w t w', Space w ∧ Notation (.value j) t ∧ Space w' ∧ s = w ++ t ++ w'

mutual
/-- A value without version objects in which no object has two members of the same name. -/
def Proper : Json → Prop
  | .ver _ => False
  | .arr l => ProperAll l
  | .obj l => (l.map Prod.fst).Nodup ∧ ProperFields l
  | _ => True
@[inherit_doc Proper] def ProperAll : List Json → Prop
  | [] => True
  | j :: l => Proper j ∧ ProperAll l
@[inherit_doc Proper] def ProperFields : List (String × Json) → Prop
  | [] => True
  | p :: l => Proper p.2 ∧ ProperFields l
end

/-- The JSON text takes one line: at most its last character is a newline. -/
def OneLine (s : Str) : Prop := ∃ l, '\n' ∉ l ∧ (s = l ∨ s = l ++ ['\n'])

/-- The explorer at the address `a` serves this knowledge: what it knows at an endpoint it answers as a JSON text on one line
(the client reads the first line), and where it has nothing it says so. -/
def Serves (ask : Str → Reply) (knows : Str → Option Json) (a : Str) : Prop :=
  ∀ endpoint, match knows endpoint with
    | some j => ∃ s, JsonText j s ∧ OneLine s ∧ ask (a ++ endpoint) = .answer 200 (readLine (utf8 s))
    | none => SaysNoContent (fun b => decodeUtf8 b) (ask (a ++ endpoint))

end TF.Spec
