import Verif.Model.Connect
import Verif.Spec.Explorer
import Verif.Spec.Amount
/-! # Networks and submissions -/
namespace TF.Spec

/-- The same text, but for capital letters. -/
def SameLetters : Str → String → Prop := fun s t => s.map Char.toLower = t.toList

/-- The network with that name (in small or capital letters). -/
def NamesNetwork (s : Str) (n : NetworkType) : Prop :=
  (n.value = 0 ∧ (SameLetters s "standard" ∨ SameLetters s "std")) ∨ (n.value = 1 ∧ SameLetters s "testnet") ∨ (n.value = 2 ∧ SameLetters s "devnet")

/-- The networks there are. -/
def IsNetwork (n : NetworkType) : Prop := n.value = 0 ∨ n.value = 1 ∨ n.value = 2

/-- The answer names the submitted transaction. -/
def NamesTransaction (resp : Json) (id : Hash) : Prop := resp.idx "transactionid" = .ok (.str id.str) ∧ id.value.length = 32

/-- Where transactions are posted to an explorer. -/
def submissionsAt (explorer : Str) : Str := explorer ++ "/transactionpool/transactions".toList

/-- The data reached the explorer at `a`, after those before it (all unreachable) were tried, and it answered `line` with status 200. -/
def Reached (P : Poster) (d : Bytes) (order before : List Str) (a : Str) (line : Bytes) : Prop :=
  ∃ after, order = before ++ a :: after ∧ (∀ x ∈ before, P.ask (submissionsAt x) d = .unreachable) ∧
    P.ask (submissionsAt a) d = .answer 200 line

end TF.Spec
