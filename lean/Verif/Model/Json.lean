import Verif.Model.Text
/-!
# JSON values (what `json.loads` gives and what the `json()` methods build)

Floats are not modelled.
-/

namespace TF

/-- A decoded JSON value; an object is its items in insertion order. `ver` is a `TransactionVersion` object
(types/transactions/Base.py:8-40), which `Transaction.json()` puts into its result (Base.py:198) although it is not a JSON value;
it compares equal to its number. -/
inductive Json
  | null
  | bool (b : Bool)
  | int (i : Int)
  | str (s : Str)
  | arr (l : List Json)
  | obj (l : List (String × Json))
  | ver (n : Nat)

/-- `k in d`, `d[k]`: first match (keys of a dict are unique). -/
def jget (l : List (String × Json)) (k : String) : Option Json := (l.find? (fun p => p.1 == k)).map (·.2)

/-- `obj.get(k)` on a value that should be a dict: `AttributeError` if it is not one. -/
def Json.get? (j : Json) (k : String) : Res (Option Json) :=
  match j with
  | .obj l => .ok (jget l k)
  | _ => .error .attributeError

/-- `obj[k]` with a str key: `KeyError` when missing, `TypeError` when `obj` is not a dict. -/
def Json.idx (j : Json) (k : String) : Res Json :=
  match j with
  | .obj l => match jget l k with
    | some v => .ok v
    | none => .error .keyError
  | _ => .error .typeError

/-- The integer a value compares equal to (`False == 0`, `True == 1`), if any. -/
def Json.asInt? : Json → Option Int
  | .int i => some i
  | .bool b => some (if b then 1 else 0)
  | .ver n => some n
  | _ => none

/-- Python truthiness. -/
def Json.truthy : Json → Bool
  | .null => false
  | .bool b => b
  | .int i => i ≠ 0
  | .str s => !s.isEmpty
  | .arr l => !l.isEmpty
  | .obj l => !l.isEmpty
  | .ver _ => true

/-- `int(v)` on a JSON value. -/
def Json.toInt : Json → Res Int
  | .int i => .ok i
  | .bool b => .ok (if b then 1 else 0)
  | .ver n => .ok n
  | .str s => match pyInt s with
    | some i => .ok i
    | none => .error .valueError
  | _ => .error .typeError

/-- `for x in v`: the values iterated over. -/
def Json.iter : Json → Res (List Json)
  | .arr l => .ok l
  | .str s => .ok (s.map fun c => .str [c])
  | .obj l => .ok (l.map fun p => .str p.1.toList)
  | _ => .error .typeError

/-- `d.get(k, []) or []`, iterated over. (When `d` is not a dict: `AttributeError`.) -/
def Json.listField (d : Json) (k : String) : Res (List Json) := do
  match ← d.get? k with
  | none => return []
  | some v => if v.truthy then v.iter else return []

/-- `d.get(k, None) or default`. -/
def Json.orDefault (d : Json) (k : String) (dflt : Json) : Res Json := do
  match ← d.get? k with
  | none => return dflt
  | some v => return (if v.truthy then v else dflt)

/-- internal/jsutils.py:654-671 `json_dumps`, as far as raising is concerned: an object that is not a JSON value reaches
`BytesEncoder.default`, which raises `TypeError`. -/
def Json.serialisable : Json → Bool
  | .arr l => serialisableList l
  | .obj l => serialisableFields l
  | .ver _ => false
  | _ => true
where
  /-- all elements -/
  serialisableList : List Json → Bool
    | [] => true
    | j :: l => j.serialisable && serialisableList l
  /-- all values -/
  serialisableFields : List (String × Json) → Bool
    | [] => true
    | (_, j) :: l => j.serialisable && serialisableFields l

end TF
