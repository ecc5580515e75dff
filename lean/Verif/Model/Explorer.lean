import Verif.Model.TxJson
/-!
# TFChainExplorerClient.py: asking several explorers

What an explorer does with a request is a parameter. Addresses are tried in an arbitrary (shuffled) order, which is a parameter too.
-/
namespace TF

/-- What comes of one request to one explorer (internal/HttpClient.py:186-224). `answer` is a response that `urlopen` returned, with its
code and its first line; `refused` is an HTTP error status with its body; `unreachable` is any other exception of `urlopen`; `badUrl` is the
`ValueError` raised before `urlopen` for an address that is no URL. -/
inductive Reply
  | answer (code : Nat) (line : Bytes)
  | refused (code : Nat) (body : Bytes)
  | unreachable
  | badUrl
  deriving DecidableEq, Repr

/-- An address in the list given to the client: a str, or something else (`none`). -/
abbrev Address := Option Str

/-- TFChainExplorerClient.py:53: the message says that there is nothing. -/
def saysNothing (s : Str) : Bool := strContains "unrecognized hash".toList s || strContains "not found".toList s

/-- TFChainExplorerClient.py:48-57: what becomes of an HTTP error of a `get`; a body that cannot be decoded raises `UnicodeDecodeError`, a
`ValueError`. A status of 0 cannot occur. -/
def refusedGet (decode : Bytes → Option Str) (code : Nat) (body : Bytes) : Err :=
  if code = 400 then match decode body with
    | none => .valueError
    | some s => if saysNothing s then .explorerNoContent else .explorerServerError
  else .explorerServerError

/-- internal/HttpClient.py:14-27, 219-221: codes of an answer that are not refused; for others the exception message is built with a wrong
number of arguments, a `TypeError`. -/
def okCodes : List Nat := [200, 201, 204]

/-- TFChainExplorerClient.py:28-60 `get`, the addresses in the order in which they are tried. -/
def explorerGet (decode : Bytes → Option Str) (ask : Str → Reply) : List Address → Res Bytes
  | [] => .error .explorerNotAvailable
  | none :: _ => .error .typeError
  | some a :: rest => match ask a with
    | .answer code line =>
      if ¬ okCodes.contains code then .error .typeError
      else if code = 200 then .ok line
      else if code = 204 then .error .explorerNoContent
      else .error .explorerServerError
    | .refused code body => .error (refusedGet decode code body)
    | .badUrl => .error .valueError
    | .unreachable => explorerGet decode ask rest

/-- What may be posted: bytes, text, a dict, or something else. -/
inductive PostData
  | bytes (b : Bytes)
  | str (s : Str)
  | dict (j : Json)
  | other

/-- TFChainExplorerClient.py:83-89: the bytes to post (`dumps` is `json_dumps` on a serialisable value). -/
def PostData.encode (dumps : Json → Str) : PostData → Res Bytes
  | .bytes b => .ok b
  | .str s => .ok (utf8 s)
  | .dict j => if j.serialisable then .ok (utf8 (dumps j)) else .error .typeError
  | .other => .error .typeError

/-- TFChainExplorerClient.py:62-102 `post`: the explorers the data was sent to, in order, and what was returned or raised. `ask a d` is what
comes of posting `d` to the explorer `a`. -/
def explorerPost (dumps : Json → Str) (ask : Str → Bytes → Reply) (data : PostData) : List Address → List Str × Res Bytes
  | [] => ([], .error .explorerNotAvailable)
  | none :: _ => ([], .error .typeError)
  | some a :: rest => match data.encode dumps with
    | .error e => ([], .error e)
    | .ok d => match ask a d with
      | .answer code line =>
        if ¬ okCodes.contains code then ([a], .error .typeError)
        else if code = 200 then ([a], .ok line)
        else ([a], .error .explorerServerPostError)
      | .refused _ _ => ([a], .error .explorerServerPostError)
      | .badUrl => ([], .error .valueError)
      | .unreachable =>
        let r := explorerPost dumps ask data rest
        (a :: r.1, r.2)

end TF
