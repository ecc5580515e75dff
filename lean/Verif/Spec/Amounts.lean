import Verif.Model.Amounts
/-! # Amounts as numbers -/
namespace TF.Spec

/-- Variables that hold numbers, and payments made of numbers. -/
structure Ledger where
  vars : List Currency
  txs : List (List CoinOutput × List Currency)

/-- The same programs when amounts are numbers: nothing that is done to a variable later changes a payment. -/
def Ledger.step (s : Ledger) : Deal → Ledger
  | .amount c => { s with vars := s.vars ++ [c] }
  | .payment => { s with txs := s.txs ++ [([], [])] }
  | .change i op o => { s with vars := s.vars.modify i fun c => op.apply c o }
  | .output j i c => match s.vars[i]? with
    | none => s
    | some x => { s with txs := s.txs.modify j fun p => (p.1 ++ [⟨x, c, ⟨[]⟩⟩], p.2) }
  | .outputOf j v c => match v, Currency.set v with
    | .cur _, _ => s
    | _, .ok x => { s with txs := s.txs.modify j fun p => (p.1 ++ [⟨x, c, ⟨[]⟩⟩], p.2) }
    | _, .error _ => s
  | .fee j i => match s.vars[i]? with
    | none => s
    | some x => { s with txs := s.txs.modify j fun p => (p.1, p.2 ++ [⟨some x.value⟩]) }
  | .outputs dst src => match s.txs[src]? with
    | none => s
    | some q => { s with txs := s.txs.modify dst fun p => (q.1, p.2) }
  | .changeOutput j k op o => { s with txs := s.txs.modify j fun p => (p.1.modify k fun co => { co with value := op.apply co.value o }, p.2) }

def Ledger.run (l : List Deal) : Ledger := l.foldl Ledger.step ⟨[], []⟩

/-- No output is changed in place, and no variable that was given to an output before. -/
def Careful : List Deal → Prop
  | [] => True
  | .changeOutput _ _ _ _ :: _ => False
  | .output _ i _ :: l => (∀ op o, Deal.change i op o ∉ l) ∧ Careful l
  | _ :: l => Careful l

end TF.Spec
