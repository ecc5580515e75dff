import Verif.Model.Url
import Verif.Model.Client
import Verif.Spec.IpText
import Verif.Spec.Regex
/-! # Explorer addresses and endpoints -/
namespace TF.Spec

/-- A visible ASCII character. -/
def Visible (c : Char) : Prop := 33 ≤ c.toNat ∧ c.toNat ≤ 126

/-- A character of a path: visible, and neither the start of a query or fragment nor a semicolon. -/
def PathChar (c : Char) : Prop := Visible c ∧ c ≠ '?' ∧ c ≠ '#' ∧ c ≠ ';'

/-- A character of the name of a host, of a port or of a user. -/
def HostChar (c : Char) : Prop := Visible c ∧ c ≠ '/' ∧ c ≠ '?' ∧ c ≠ '#' ∧ c ≠ '[' ∧ c ≠ ']' ∧ c ≠ '%'

/-- A host: a name, or an IPv6 address in brackets; both perhaps with a port. -/
inductive IsHost : Str → Prop
  | name (h : Str) : h ≠ [] → (∀ c ∈ h, HostChar c) → IsHost h
  | ipv6 (a : Str) (groups : List Nat) (port : Str) : V6Text a groups → (∀ c ∈ port, HostChar c) → IsHost ('[' :: a ++ ']' :: port)

/-- A path: empty, or a text from a slash on. -/
def IsPath (p : Str) : Prop := (p = [] ∨ p.head? = some '/') ∧ ∀ c ∈ p, PathChar c

/-- An address of an explorer, in its parts: `https://host/path`. -/
structure Site where
  scheme : Str
  host : Str
  path : Str

/-- The address as a text. -/
def Site.text (s : Site) : Str := s.scheme ++ "://".toList ++ s.host ++ s.path

/-- An address of the usual form (the scheme in small or capital letters). -/
structure Site.Good (s : Site) : Prop where
  scheme : s.scheme.map Char.toLower = "http".toList ∨ s.scheme.map Char.toLower = "https".toList
  host : IsHost s.host
  path : IsPath s.path

/-- An endpoint that can be appended to every address. -/
def GoodEndpoint (e : Str) : Prop := IsPath e ∧ e ≠ []

/-- The request for an endpoint: to the host of the address, for its path followed by the endpoint. -/
def Site.asked (s : Site) (endpoint : Str) : Target := ⟨s.scheme.map Char.toLower, some s.host, s.path ++ endpoint⟩

/-- What a 3Bot is asked for by: its number, an accepted name, a key, or a text without blanks, queries and the like. -/
def PlainBot : BotArg → Prop
  | .name n => GoodName n.value
  | .str s => ∀ c ∈ s, PathChar c
  | _ => True

/-- Two worlds of explorers with the same answers at all good endpoints. -/
def AgreeAtGood (C : Client) (get : Str → Res Json) : Prop := ∀ e, GoodEndpoint e → C.get e = get e

end TF.Spec
