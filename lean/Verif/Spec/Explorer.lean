import Verif.Model.Explorer
/-! # Several explorers: which one answers -/
namespace TF.Spec

/-- No explorer answers at this address (which is a text). -/
def Unreachable (ask : Str → Reply) (a : Address) : Prop := ∃ s, a = some s ∧ ask s = .unreachable

/-- The explorer at `a` is the first in this order that is reachable. -/
def FirstReachable (ask : Str → Reply) (order : List Address) (a : Str) : Prop :=
  ∃ before after, order = before ++ some a :: after ∧ (∀ x ∈ before, Unreachable ask x) ∧ ask a ≠ .unreachable

/-- The explorer says that it has nothing under that name: status 204, or status 400 with one of two phrases in the message. -/
def SaysNoContent (decode : Bytes → Option Str) : Reply → Prop
  | .answer code _ => code = 204
  | .refused code body => code = 400 ∧ ∃ s, decode body = some s ∧
      ((∃ pre post, s = pre ++ "unrecognized hash".toList ++ post) ∨ ∃ pre post, s = pre ++ "not found".toList ++ post)
  | _ => False

/-- The explorer refuses with an error of its own: status 201, or an HTTP error that does not say that there is nothing. -/
def SaysError (decode : Bytes → Option Str) : Reply → Prop
  | .answer code _ => code = 201
  | .refused code body => (code ≠ 400 ∨ ∃ s, decode body = some s) ∧ ¬ SaysNoContent decode (.refused code body)
  | _ => False

end TF.Spec
