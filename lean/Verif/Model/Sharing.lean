import Verif.Model.TxBuild
/-!
# Transactions as objects: fulfillments with an identity

In the rest of the model a transaction is a value. In Python the fulfillments of its coin inputs are objects, and assigning the coin
inputs of one transaction to another one (types/transactions/Standard.py:116-124 and the same setters elsewhere) makes new `CoinInput`
objects that hold the *same* fulfillment objects (types/IO.py:55-62 keeps the reference). Here the fulfillments of coin inputs live in a
store. Simplified: blockstake inputs, conditions and amounts keep being values.
-/
namespace TF

/-- types/IO.py:8-21: a coin input with a reference to its fulfillment. -/
structure InputObj where
  parentId : Hash
  ref : Nat
  parent : Option CoinOutput
  deriving DecidableEq, Repr

/-- A transaction object: everything but its coin inputs, and its `_coin_inputs` (`none` is `None`: ThreeBot.py:893, ERC20.py:420). The
coin inputs `base` may have are ignored when there are `ins`. -/
structure TxObj where
  base : Tx
  ins : Option (List InputObj)
  deriving DecidableEq, Repr

/-- The objects of a program. -/
structure Heap where
  store : List Fulfillment
  txs : List TxObj
  deriving DecidableEq, Repr

/-- A coin input as it is seen through its reference. -/
def InputObj.load (s : List Fulfillment) (i : InputObj) : CoinInput := ⟨i.parentId, s.getD i.ref (.single .default none), i.parent⟩

/-- The transaction with these coin inputs (classes without coin inputs stay as they are). -/
def Tx.putInputs (t : Tx) (l : List CoinInput) : Tx :=
  match t with
  | .v1 v => .v1 { v with coinInputs := l }
  | .v144 v => .v144 { v with coinInputs := l }
  | .v145 v => .v145 { v with coinInputs := l }
  | .v146 v => .v146 { v with coinInputs := some l }
  | .v208 v => .v208 { v with coinInputs := l }
  | .v210 v => .v210 { v with coinInputs := some l }
  | t => t

/-- A transaction object as it is seen by its getters. -/
def TxObj.view (s : List Fulfillment) (o : TxObj) : Tx :=
  match o.ins with
  | none => o.base
  | some l => o.base.putInputs (l.map (·.load s))

/-- The `j`-th transaction made. -/
def Heap.tx (h : Heap) (j : Nat) : Option Tx := h.txs[j]?.map (·.view h.store)

/-- New fulfillment objects for new inputs. -/
def alloc (s : List Fulfillment) : List CoinInput → List Fulfillment × List InputObj
  | [] => (s, [])
  | ci :: l => let r := alloc (s ++ [ci.fulfillment]) l; (r.1, ⟨ci.parentId, s.length, ci.parent⟩ :: r.2)

/-- What a program may do with transactions. -/
inductive Act
  /-- make a transaction, with its own inputs (`transactions.new`, `from_json`) -/
  | new (t : Tx)
  /-- `tx.coin_inputs = [...]` with inputs made for it, such as by `CoinInput.from_coin_output` -/
  | assign (j : Nat) (l : List CoinInput)
  /-- `tx.coin_input_add(parentid, fulfillment, parent_output)` with a fulfillment made for it -/
  | add (j : Nat) (ci : CoinInput)
  /-- `dst.coin_inputs = src.coin_inputs` -/
  | share (dst src : Nat)
  /-- a signature arriving at `tx` -/
  | sign (j : Nat) (target : SigTarget) (k : KeyArg) (sig : BVal)

/-- One act: the objects afterwards and the exception, if any. Transactions that do not exist: `IndexError`. -/
def Heap.step (H : Bytes → Bytes) (h : Heap) : Act → Heap × Option Err
  | .new t => match t.coinInputs with
    | none => (⟨h.store, h.txs ++ [⟨t, none⟩]⟩, none)
    | some l => let r := alloc h.store l; (⟨r.1, h.txs ++ [⟨t, some r.2⟩]⟩, none)
  | .assign j l => match h.txs[j]? with
    | none => (h, some .indexError)
    | some o => match o.base.setCoinInputs [] with
      | .error e => (h, some e)
      | .ok _ => let r := alloc h.store (copyInputs l); (⟨r.1, h.txs.set j { o with ins := some r.2 }⟩, none)
  | .add j ci => match h.txs[j]? with
    | none => (h, some .indexError)
    | some o => match (o.view h.store).coinInputAdd ci.parentId ci.fulfillment ci.parent with
      | .error e => (h, some e)
      | .ok _ => let r := alloc h.store [ci]; (⟨r.1, h.txs.set j { o with ins := some (o.ins.getD [] ++ r.2) }⟩, none)
  | .share dst src => match h.txs[dst]?, h.txs[src]? with
    | some o, some p => match o.base.setCoinInputs [] with
      | .error e => (h, some e)
      | .ok _ => (⟨h.store, h.txs.set dst { o with ins := some ((p.ins.getD []).map fun i => { i with parent := some (i.parent.getD .default) }) }⟩, none)
    | _, _ => (h, some .indexError)
  | .sign j tgt k sig => match h.txs[j]? with
    | none => (h, some .indexError)
    | some o =>
      let r := (o.view h.store).sign H tgt k sig
      match tgt with
      | .coin i => match (o.ins.getD [])[i]? with
        | none => (h, r.2)
        | some io => (⟨h.store.set io.ref ((io.load h.store).fulfillment.signatureAdd k sig).1, h.txs⟩, r.2)
      | _ => (⟨h.store, h.txs.set j { o with base := r.1 }⟩, r.2)

/-- A program, from the start. -/
def Heap.run (H : Bytes → Bytes) (l : List Act) : Heap := l.foldl (fun h a => (h.step H a).1) ⟨[], []⟩

end TF
