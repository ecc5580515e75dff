import Verif.Model.TxJson
import Verif.Model.Explorer
/-!
# JSON as text: `json_dumps`, `json_loads` (internal/jsutils.py:654-677) and the line an explorer client reads

`json_dumps` and `json_loads` are calls of Python's `json` module with the options given there; what that module does with these options (CPython's
`json/encoder.py` `_make_iterencode`, `json/decoder.py`, and the C scanner) is modelled here. Not modelled: the limits on nesting depth and on the number of
digits of an int. Floats and lone surrogates have no counterpart among the values of the model: reading a text with one of them is `beyond`.
-/
namespace TF

/-! ## Writing -/

/-- `json/encoder.py` `py_encode_basestring` for one character (`ensure_ascii=False`, jsutils.py:671). -/
def escapeChar (c : Char) : Str :=
  if c = '"' then ['\\', '"']
  else if c = '\\' then ['\\', '\\']
  else if c = '\n' then ['\\', 'n']
  else if c = '\r' then ['\\', 'r']
  else if c = '\t' then ['\\', 't']
  else if c.toNat = 12 then ['\\', 'f']
  else if c.toNat = 8 then ['\\', 'b']
  else if c.toNat < 32 then ['\\', 'u', '0', '0', Nat.digitChar (c.toNat / 16), Nat.digitChar (c.toNat % 16)]
  else [c]

/-- A string with its quotes. -/
def quoted (s : Str) : Str := '"' :: s.flatMap escapeChar ++ ['"']

/-- internal/jsutils.py:670-671 `json_dumps(obj)` on a serialisable value. The option `indent=False` is not `None`, so everything inside a
list or dict goes on a line of its own, indented by nothing; items are separated by a comma, keys and values by a colon and a space. -/
def Json.dumps : Json → Str
  | .null => "null".toList
  | .bool b => if b then "true".toList else "false".toList
  | .int i => intStr i
  | .str s => quoted s
  | .arr l => match l with
    | [] => "[]".toList
    | j :: l => '[' :: '\n' :: (j.dumps ++ dumpsMore l) ++ "\n]".toList
  | .obj l => match l with
    | [] => "{}".toList
    | (k, j) :: l => '{' :: '\n' :: (quoted k.toList ++ ": ".toList ++ j.dumps ++ dumpsFields l) ++ "\n}".toList
  | .ver n => natStr n  -- not serialisable (`TypeError`, see `Json.serialisable`): never asked
where
  /-- the further elements -/
  dumpsMore : List Json → Str
    | [] => []
    | j :: l => ",\n".toList ++ j.dumps ++ dumpsMore l
  /-- the further members -/
  dumpsFields : List (String × Json) → Str
    | [] => []
    | (k, j) :: l => ",\n".toList ++ quoted k.toList ++ ": ".toList ++ j.dumps ++ dumpsFields l

/-! ## Reading -/

/-- Why a text gives no value of the model: `JSONDecodeError` (a `ValueError`), or it has a float or a lone surrogate. -/
inductive LoadErr
  | refused
  | beyond
  deriving DecidableEq, Repr

/-- `json/decoder.py` `WHITESPACE`. -/
def isJsonWs (c : Char) : Bool := c = ' ' || c = '\t' || c = '\n' || c = '\r'
@[inherit_doc isJsonWs] def skipWs (s : Str) : Str := s.dropWhile isJsonWs

/-- Four hexadecimal digits. -/
def hex4 (a b c d : Char) : Option Nat := do
  return (((← hexVal a) * 16 + (← hexVal b)) * 16 + (← hexVal c)) * 16 + (← hexVal d)

/-- `json/decoder.py` `BACKSLASH`. -/
def unescape (c : Char) : Option Char :=
  if c = '"' then some '"' else if c = '\\' then some '\\' else if c = '/' then some '/' else if c = 'b' then some (Char.ofNat 8)
  else if c = 'f' then some (Char.ofNat 12) else if c = 'n' then some '\n' else if c = 'r' then some '\r' else if c = 't' then some '\t' else none

/-- The string after its opening quote, with what follows its closing quote (`scanstring`, strict). -/
def jsonString : Str → Except LoadErr (Str × Str)
  | [] => .error .refused
  | c :: r =>
    if c = '"' then .ok ([], r)
    else if c = '\\' then match r with
      | [] => .error .refused
      | e :: r =>
        if e = 'u' then match r with
          | a :: b :: c :: d :: r => match hex4 a b c d with
            | none => .error .refused
            | some n =>
              if 0xd800 ≤ n ∧ n < 0xdc00 then match r with
                | '\\' :: 'u' :: a' :: b' :: c' :: d' :: r => match hex4 a' b' c' d' with
                  | none => .error .refused
                  | some m => if 0xdc00 ≤ m ∧ m < 0xe000 then do
                      let (v, rest) ← jsonString r
                      return (Char.ofNat (0x10000 + (n - 0xd800) * 0x400 + (m - 0xdc00)) :: v, rest)
                    else .error .beyond
                | _ => .error .beyond
              else if 0xdc00 ≤ n ∧ n < 0xe000 then .error .beyond
              else do
                let (v, rest) ← jsonString r
                return (Char.ofNat n :: v, rest)
          | _ => .error .refused
        else match unescape e with
          | none => .error .refused
          | some x => do
            let (v, rest) ← jsonString r
            return (x :: v, rest)
    else if c.toNat < 32 then .error .refused
    else do
      let (v, rest) ← jsonString r
      return (c :: v, rest)

/-- The number goes on as a float: a point and a digit, or an exponent. -/
def floats : Str → Bool
  | '.' :: d :: _ => isDig d
  | e :: s :: d :: _ => (e = 'e' || e = 'E') && (isDig s || ((s = '+' || s = '-') && isDig d))
  | [e, s] => (e = 'e' || e = 'E') && isDig s
  | _ => false

/-- The digits of the whole part: a zero, or digits that do not start with one. -/
def wholePart (r : Str) : Str :=
  match r with
  | [] => []
  | c :: _ => if c = '0' then ['0'] else r.takeWhile isDig

/-- A number (the C scanner's `_match_number_unicode`). -/
def jsonNumber (neg : Bool) (r : Str) : Except LoadErr (Json × Str) :=
  if wholePart r = [] then .error (if neg ∧ "Infinity".toList.isPrefixOf r then .beyond else .refused)
  else if floats (r.drop (wholePart r).length) then .error .beyond
  else .ok (.int (if neg then -(digVal (wholePart r) : Int) else digVal (wholePart r)), r.drop (wholePart r).length)

/-- The constants. -/
def jsonWord (s : Str) : Option (Json × Str) :=
  if "null".toList.isPrefixOf s then some (.null, s.drop 4)
  else if "true".toList.isPrefixOf s then some (.bool true, s.drop 4)
  else if "false".toList.isPrefixOf s then some (.bool false, s.drop 5)
  else none

/-- `dict(pairs)`: a later value for the same key replaces the earlier one. -/
def dictPut (d : List (String × Json)) (p : Str × Json) : List (String × Json) :=
  if d.any (fun q => q.1 == String.ofList p.1) then d.map fun q => if q.1 == String.ofList p.1 then (q.1, p.2) else q
  else d ++ [(String.ofList p.1, p.2)]

mutual
/-- A value at the beginning of the text, with what follows it (`scan_once`). The number bounds the recursion. -/
def jsonValue : Nat → Str → Except LoadErr (Json × Str)
  | 0, _ => .error .refused
  | n + 1, s => match s with
    | [] => .error .refused
    | c :: r =>
      if c = '"' then do
        let (v, rest) ← jsonString r
        return (.str v, rest)
      else if c = '[' then match skipWs r with
        | [] => .error .refused
        | c' :: r' => if c' = ']' then .ok (.arr [], r') else do
          let (l, rest) ← jsonItems n (c' :: r')
          return (.arr l, rest)
      else if c = '{' then match skipWs r with
        | [] => .error .refused
        | c' :: r' => if c' = '}' then .ok (.obj [], r') else do
          let (l, rest) ← jsonMembers n (c' :: r')
          return (.obj (l.foldl dictPut []), rest)
      else match jsonWord (c :: r) with
        | some x => .ok x
        | none =>
          if "NaN".toList.isPrefixOf (c :: r) ∨ "Infinity".toList.isPrefixOf (c :: r) then .error .beyond
          else if c = '-' then jsonNumber true r
          else jsonNumber false (c :: r)
/-- The elements of a list up to and including the closing bracket (`JSONArray`). -/
def jsonItems : Nat → Str → Except LoadErr (List Json × Str)
  | 0, _ => .error .refused
  | n + 1, s => do
    let (j, r) ← jsonValue n s
    match skipWs r with
    | [] => .error .refused
    | c :: r =>
      if c = ',' then do
        let (l, rest) ← jsonItems n (skipWs r)
        return (j :: l, rest)
      else if c = ']' then return ([j], r)
      else .error .refused
/-- The members of an object up to and including the closing brace (`JSONObject`). -/
def jsonMembers : Nat → Str → Except LoadErr (List (Str × Json) × Str)
  | 0, _ => .error .refused
  | n + 1, s => match s with
    | [] => .error .refused
    | q :: r => if q ≠ '"' then .error .refused else do
      let (k, r) ← jsonString r
      match skipWs r with
      | [] => .error .refused
      | c :: r => if c ≠ ':' then .error .refused else do
        let (j, r) ← jsonValue n (skipWs r)
        match skipWs r with
        | [] => .error .refused
        | c :: r =>
          if c = ',' then do
            let (l, rest) ← jsonMembers n (skipWs r)
            return ((k, j) :: l, rest)
          else if c = '}' then return ([(k, j)], r)
          else .error .refused
end

/-- internal/jsutils.py:674-677 `json_loads` of a str (`JSONDecoder.decode`: nothing but white space around the value). -/
def jsonLoads (s : Str) : Except LoadErr Json := do
  let (j, rest) ← jsonValue (2 * s.length + 1) (skipWs s)
  if skipWs rest = [] then return j else .error .refused

/-- `bytes.decode('utf-8')`; `none` is `UnicodeDecodeError`, a `ValueError`. -/
def decodeUtf8 (b : Bytes) : Option Str := (String.fromUTF8? ⟨b.toArray⟩).map String.toList

/-- internal/jsutils.py:674-677 `json_loads` of bytes. -/
def jsonLoadsBytes (b : Bytes) : Except LoadErr Json :=
  match decodeUtf8 b with
  | some s => jsonLoads s
  | none => .error .refused

/-- `resp.readline()` (TFChainExplorerClient.py:43, 95): the body up to and including the first newline. -/
def readLine : Bytes → Bytes
  | [] => []
  | b :: r => if b = 10 then [b] else b :: readLine r

/-- TFChainExplorerClient.py:43 with TFChainClient.py:151 and elsewhere: the value a client takes from the body of an answer. -/
def answerValue (body : Bytes) : Except LoadErr Json := jsonLoadsBytes (readLine body)

/-- types/transactions/Transactions.py:65-103 `from_json` given a str; a text without value raises `JSONDecodeError`, a text of another value than an object
`TypeError`. `none`: the text is beyond the model. -/
def Tx.fromText (L : IpLib) (H : Bytes → Bytes) (s : Str) : Option (Res Tx) :=
  match jsonLoads s with
  | .ok j => some (Tx.fromJson L H j)
  | .error .refused => some (.error .valueError)
  | .error .beyond => none

/-- TFChainClient.py:150-151, 222-225 and elsewhere: `json_loads(self.explorer_get(endpoint))`, the explorers in the order in which they are tried
(TFChainExplorerClient.py:40: the endpoint is appended to the address). `none`: the answer is beyond the model. -/
def fetchJson (ask : Str → Reply) (order : List Address) (endpoint : Str) : Option (Res Json) :=
  match explorerGet decodeUtf8 (fun a => ask (a ++ endpoint)) order with
  | .error e => some (.error e)
  | .ok line => match jsonLoadsBytes line with
    | .ok j => some (.ok j)
    | .error .refused => some (.error .valueError)
    | .error .beyond => none

end TF
