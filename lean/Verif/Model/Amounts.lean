import Verif.Model.TxBuild
/-!
# Amounts as objects

`+=`, `-=` and `*=` change a `Currency` in place (types/PrimitiveTypes.py:238-266), and an output keeps the `Currency` object it is given
(types/IO.py:144-149), while miner fees are copies (types/transactions/Standard.py:193-194). Here the amounts live in a store. Simplified: of
a payment (types/transactions/Standard.py) only the outputs and the fees are kept.
-/
namespace TF

/-- types/IO.py:117-133: an output with a reference to its amount. -/
structure OutObj where
  ref : Nat
  condition : Condition
  id : Hash
  deriving DecidableEq, Repr

/-- A payment: its outputs and fees. -/
structure PayObj where
  outs : List OutObj
  fees : List Currency
  deriving DecidableEq, Repr

/-- The amounts, the variables of the program that hold amounts, and its payments. -/
structure Purse where
  cells : List Currency
  vars : List Nat
  txs : List PayObj
  deriving DecidableEq, Repr

/-- The amount at a place of the store. -/
def cellAt (cells : List Currency) (r : Nat) : Currency := cells.getD r ⟨none⟩

/-- An output as it is seen. -/
def OutObj.load (cells : List Currency) (o : OutObj) : CoinOutput := ⟨cellAt cells o.ref, o.condition, o.id⟩

/-- A payment as it is seen. -/
def PayObj.view (cells : List Currency) (p : PayObj) : TxV1 := { coinOutputs := p.outs.map (·.load cells), minerFees := p.fees }

/-- The `j`-th payment. -/
def Purse.tx (s : Purse) (j : Nat) : Option TxV1 := s.txs[j]?.map (·.view s.cells)
/-- The `i`-th variable. -/
def Purse.var (s : Purse) (i : Nat) : Option Currency := s.vars[i]?.map (cellAt s.cells)

/-- The operators that change an amount. -/
inductive InPlace | add | sub | mul
  deriving DecidableEq, Repr

/-- types/PrimitiveTypes.py:238-266: the amount afterwards; it stays as it was when the operator raises. -/
def InPlace.apply (op : InPlace) (c : Currency) (o : COperand) : Currency :=
  match (match op with
    | .add => c.add o
    | .sub => c.sub o
    | .mul => c.mul o) with
  | .ok c' => c'
  | .error _ => c

/-- What a program may do with amounts and payments. -/
inductive Deal
  /-- `x = Currency(…)` -/
  | amount (c : Currency)
  /-- `tx = transactions.new()` -/
  | payment
  /-- `x += y` and the like -/
  | change (i : Nat) (op : InPlace) (o : COperand)
  /-- `tx.coin_output_add(x, condition)` -/
  | output (j i : Nat) (c : Condition)
  /-- `tx.coin_output_add(5, condition)`: not a `Currency`, so a new one is made -/
  | outputOf (j : Nat) (v : CVal) (c : Condition)
  /-- `tx.miner_fee_add(x)` -/
  | fee (j i : Nat)
  /-- `dst.coin_outputs = src.coin_outputs` -/
  | outputs (dst src : Nat)
  /-- `tx.coin_outputs[k].value += y` and the like: the getter gives the amount, the operator changes it, the setter keeps it -/
  | changeOutput (j k : Nat) (op : InPlace) (o : COperand)

/-- One of them. What does not exist is an exception, and nothing happens. -/
def Purse.step (s : Purse) : Deal → Purse
  | .amount c => { s with cells := s.cells ++ [c], vars := s.vars ++ [s.cells.length] }
  | .payment => { s with txs := s.txs ++ [⟨[], []⟩] }
  | .change i op o => match s.vars[i]? with
    | none => s
    | some r => { s with cells := s.cells.set r (op.apply (cellAt s.cells r) o) }
  | .output j i c => match s.txs[j]?, s.vars[i]? with
    | some p, some r => { s with txs := s.txs.set j { p with outs := p.outs ++ [⟨r, c, ⟨[]⟩⟩] } }
    | _, _ => s
  | .outputOf j v c => match s.txs[j]?, v, Currency.set v with
    | some _, .cur _, _ => s
    | some p, _, .ok x => { s with cells := s.cells ++ [x], txs := s.txs.set j { p with outs := p.outs ++ [⟨s.cells.length, c, ⟨[]⟩⟩] } }
    | _, _, _ => s
  | .fee j i => match s.txs[j]?, s.vars[i]? with
    | some p, some r => { s with txs := s.txs.set j { p with fees := p.fees ++ [⟨some (cellAt s.cells r).value⟩] } }
    | _, _ => s
  | .outputs dst src => match s.txs[dst]?, s.txs[src]? with
    | some p, some q => { s with txs := s.txs.set dst { p with outs := q.outs } }
    | _, _ => s
  | .changeOutput j k op o => match s.txs[j]? with
    | none => s
    | some p => match p.outs[k]? with
      | none => s
      | some out => { s with cells := s.cells.set out.ref (op.apply (cellAt s.cells out.ref) o) }

/-- A program. -/
def Purse.run (l : List Deal) : Purse := l.foldl Purse.step ⟨[], [], []⟩

end TF
