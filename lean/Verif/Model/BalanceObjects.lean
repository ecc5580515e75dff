import Verif.Model.Balance
import Verif.Model.Compare
/-!
# Balances as objects (TFChainWallet.py:1818-2278)

In the rest of the model a balance is a value. In Python a balance is an object: `balance_add` changes the balance it is called on, a
`WalletsBalance` holds the *same* `MultiSigWalletBalance` objects as the balances it was made from (`_merge_multisig_wallet_balance`,
:2275-2277), and `chain_blockid` hands out the `Hash` object that its setter changes in place (:1842-1860). Here balances and their block
identifiers live in stores and are referred to by number. The dictionaries of outputs belong to one balance only: `_base` (:2007-2021)
shares them with an object that is dropped at once. Simplified: outputs and the bytes of identifiers keep being values.
-/
namespace TF

/-- The class of a balance: `WalletBalance`, `MultiSigWalletBalance` with its owners and number of signatures (:2136-2149) and
`WalletsBalance` with references to the balances of its multi-signature wallets (:2197-2204). -/
inductive BalKind
  | wallet
  | multi (owners : List UnlockHash) (required : Int)
  | wallets (refs : List (Str × Nat))
  deriving DecidableEq, Repr

/-- A balance object. The `blockid` of `own` is not used: the identifier is the object `idRef`. -/
structure BalObj where
  kind : BalKind
  own : Balance
  idRef : Nat
  deriving DecidableEq, Repr

/-- The objects of a program: the identifiers and the balances. -/
structure BalHeap where
  ids : List Hash := []
  bals : List BalObj := []
  deriving DecidableEq, Repr

/-- The identifier with this number. -/
def BalHeap.id (h : BalHeap) (r : Nat) : Hash := h.ids.getD r ⟨[]⟩
/-- What is accounted for in the object itself. -/
def BalHeap.load (h : BalHeap) (o : BalObj) : Balance := { o.own with blockid := h.id o.idRef }
/-- A referenced multi-signature balance, as it is seen now. -/
def BalHeap.multiAt (h : BalHeap) (r : Nat) : MultiBalance :=
  match h.bals[r]? with
  | some ⟨.multi owners n, own, ref⟩ => ⟨owners, n, h.load ⟨.multi owners n, own, ref⟩⟩
  | _ => ⟨[], 0, {}⟩
/-- A balance object as its properties show it. -/
def BalHeap.view (h : BalHeap) (o : BalObj) : AnyBalance :=
  match o.kind with
  | .wallet => .wallet (h.load o)
  | .multi owners n => .multi ⟨owners, n, h.load o⟩
  | .wallets refs => .wallets ⟨h.load o, refs.map fun p => (p.1, h.multiAt p.2)⟩
/-- The `j`-th balance made, as its properties show it. -/
def BalHeap.bal (h : BalHeap) (j : Nat) : Option AnyBalance := h.bals[j]?.map h.view

/-- The constructors (:1819-1833, 2148-2149, 2203-2204): a new object with a new `Hash()`. -/
def BalHeap.alloc (h : BalHeap) (k : BalKind) : BalHeap := ⟨h.ids ++ [⟨[]⟩], h.bals ++ [⟨k, {}, h.ids.length⟩]⟩
/-- Assignments to the dictionaries, the set of addresses, the height and the time of the balance `j`. -/
def BalHeap.put (h : BalHeap) (j : Nat) (b : Balance) : BalHeap :=
  match h.bals[j]? with
  | some o => { h with bals := h.bals.set j { o with own := b } }
  | none => h
/-- `self._wallets = …` of the balance `j`. -/
def BalHeap.putRefs (h : BalHeap) (j : Nat) (refs : List (Str × Nat)) : BalHeap :=
  match h.bals[j]? with
  | some o => { h with bals := h.bals.set j { o with kind := .wallets refs } }
  | none => h
/-- TFChainWallet.py:1855: `self._chain_blockid = Hash()` of the balance `j`, a new identifier object. -/
def BalHeap.newId (h : BalHeap) (j : Nat) : BalHeap :=
  match h.bals[j]? with
  | some o => ⟨h.ids ++ [⟨[]⟩], h.bals.set j { o with idRef := h.ids.length }⟩
  | none => h
/-- TFChainWallet.py:1858, 1860: `self._chain_blockid.value = …`, which changes the identifier object the balance `j` has. -/
def BalHeap.setId (h : BalHeap) (j : Nat) (v : Hash) : BalHeap :=
  match h.bals[j]? with
  | some o => { h with ids := h.ids.set o.idRef v }
  | none => h
/-- TFChainWallet.py:1848-1860, given a `Hash`. -/
def BalHeap.putId (h : BalHeap) (j : Nat) (v : Hash) : BalHeap := if v.value = [] then h.newId j else h.setId j v

/-- TFChainWallet.py:2037-2056: `WalletBalance.balance_add` of what the object `o` itself accounts for. The setters run in the order time,
height, identifier (:2045-2047), before the outputs are merged. -/
def BalHeap.merge (h : BalHeap) (j : Nat) (o : BalObj) : BalHeap × Option Err :=
  match h.bals[j]? with
  | none => (h, some .indexError)
  | some s => match (h.load s).merge (h.load o) with
    | .error e => (h, some e)
    | .ok b => ((if s.own.height ≥ o.own.height then h else h.putId j (h.id o.idRef)).put j b, none)

/-- TFChainWallet.py:2271-2278 `_merge_multisig_wallet_balance`: the wallet is held, not copied; there is no method `merge`. -/
def BalHeap.hold (h : BalHeap) (j : Nat) (address : Str) (r : Nat) : BalHeap × Option Err :=
  match h.bals[j]? with
  | some ⟨.wallets refs, _, _⟩ =>
    if refs.any fun p => p.1 = address then (h, some .attributeError) else (h.putRefs j (refs ++ [(address, r)]), none)
  | _ => (h, some .attributeError)

/-- The loop of TFChainWallet.py:2266-2267, until the first exception. -/
def BalHeap.holdAll (h : BalHeap) (j : Nat) : List (Str × Nat) → BalHeap × Option Err
  | [] => (h, none)
  | p :: l => match h.hold j p.1 p.2 with
    | (h, none) => h.holdAll j l
    | r => r

/-- TFChainWallet.py:2244-2269 `WalletsBalance.balance_add`, on the balance `j` with the balance `k`. -/
def BalHeap.addTo (H : Bytes → Bytes) (h : BalHeap) (j k : Nat) : BalHeap × Option Err :=
  match h.bals[k]? with
  | none => (h, some .indexError)
  | some o => match o.kind with
    | .multi owners n => match (⟨owners, n, {}⟩ : MultiBalance).address H with
      | .error e => (h, some e)
      | .ok address => h.hold j address k
    | .wallet => h.merge j o
    | .wallets refs => match h.merge j o with
      | (h, none) => h.holdAll j refs
      | r => r

/-- `balance_add` (TFChainWallet.py:2023-2056, 2171-2189, 2244-2269) of the balance `k` to the balance `j`: the objects afterwards and the
number of the returned one. -/
def BalHeap.add (H : Bytes → Bytes) (h : BalHeap) (j k : Nat) : BalHeap × Res Nat :=
  let fin (r : BalHeap × Option Err) (n : Nat) : BalHeap × Res Nat := (r.1, match r.2 with | none => .ok n | some e => .error e)
  match h.bals[j]?, h.bals[k]? with
  | some s, some o => match s.kind, o.kind with
    | .wallet, .wallet => fin (h.merge j o) j
    | .wallet, _ =>
      let n := h.bals.length
      match (h.alloc (.wallets [])).addTo H n j with
      | (h, none) => fin (h.addTo H n k) n
      | r => fin r n
    | .multi owners n, .multi .. => match (⟨owners, n, {}⟩ : MultiBalance).address H with
      | .ok _ => (h, .error .attributeError)
      | .error e => (h, .error e)
    | .multi .., _ =>
      let n := h.bals.length
      match (h.alloc (.wallets [])).addTo H n j with
      | (h, none) => fin (h.addTo H n j) n
      | r => fin r n
    | .wallets _, _ => fin (h.addTo H j k) j
  | _, _ => (h, .error .indexError)

/-- `WalletBalance.output_add` (TFChainWallet.py:1982-2006) on the object `j`. -/
def BalHeap.outputTo (H : Bytes → Bytes) (h : BalHeap) (j : Nat) (o : CoinOutput) (confirmed isSpent : Bool) : BalHeap × Option Err :=
  match h.bals[j]? with
  | none => (h, some .indexError)
  | some s => let r := s.own.outputAdd H o confirmed isSpent; (h.put j r.1, r.2)

/-- `output_add` (TFChainWallet.py:1982-2006, 2221-2242). -/
def BalHeap.outputAdd (H : Bytes → Bytes) (h : BalHeap) (j : Nat) (o : CoinOutput) (confirmed isSpent : Bool) : BalHeap × Option Err :=
  match h.bals[j]? with
  | none => (h, some .indexError)
  | some s => match s.kind with
    | .wallets refs => match o.condition.unlockhash H with
      | .error e => (h, some e)
      | .ok u =>
        if u.type = 3 then match o.condition.unwrap with
          | .multiSig .. => match (refs.find? fun p => p.1 = u.str H).map (·.2) with
            | some r => h.outputTo H r o confirmed isSpent
            | none => match (do let (owners, n) ← ownersOf o.condition; MultiBalance.new owners n : Res MultiBalance) with
              | .error e => (h, some e)
              | .ok m =>
                let r := h.bals.length
                ((h.alloc (.multi m.owners m.required)).putRefs j (refs ++ [(u.str H, r)])).outputTo H r o confirmed isSpent
          | _ => (h, some .typeError)
        else (h.put j { s.own with addresses := setAdd s.own.addresses (u.str H) }).outputTo H j o confirmed isSpent
    | _ => h.outputTo H j o confirmed isSpent

/-- What a program may do with balances. -/
inductive BalAct
  /-- `WalletBalance()` -/
  | newWallet
  /-- `MultiSigWalletBalance(owners, signature_count)` -/
  | newMulti (owners : List UnlockHash) (required : Int)
  /-- `WalletsBalance()` -/
  | newWallets
  /-- `b.output_add(output, confirmed=…, spent=…)` -/
  | output (j : Nat) (o : CoinOutput) (confirmed isSpent : Bool)
  /-- `b.balance_add(other)` -/
  | add (j k : Nat)
  /-- `b.chain_height = …` -/
  | height (j : Nat) (v : Int)
  /-- `b.chain_time = …` -/
  | time (j : Nat) (v : Int)
  /-- `b.chain_blockid = …` with a text, bytes or data -/
  | blockid (j : Nat) (v : BVal)

/-- `not value` of the setter (TFChainWallet.py:1854). Of other values, those that are true (false ones are as `None`). -/
def BVal.falsy : BVal → Bool
  | .none => true
  | .str s => s.isEmpty
  | .bytes b => b.isEmpty
  | .data d => d.value.isEmpty
  | .other => false

/-- One act: the objects afterwards and the exception, if any. Balances that do not exist: `IndexError`. -/
def BalHeap.step (H : Bytes → Bytes) (h : BalHeap) : BalAct → BalHeap × Option Err
  | .newWallet => (h.alloc .wallet, none)
  | .newMulti owners n => match MultiBalance.new owners n with
    | .ok m => (h.alloc (.multi m.owners m.required), none)
    | .error e => (h, some e)
  | .newWallets => (h.alloc (.wallets []), none)
  | .output j o c s => h.outputAdd H j o c s
  | .add j k => let r := h.add H j k; (r.1, match r.2 with | .ok _ => none | .error e => some e)
  | .height j v => match h.bals[j]? with
    | some s => (h.put j { s.own with height := v }, none)
    | none => (h, some .indexError)
  | .time j v => match h.bals[j]? with
    | some s => (h.put j { s.own with time := v }, none)
    | none => (h, some .indexError)
  | .blockid j v => match h.bals[j]? with
    | none => (h, some .indexError)
    | some _ =>
      if v.falsy then (h.newId j, none)
      else match BinData.set ⟨[], some 32, .hex⟩ v with
        | .ok d => (h.setId j ⟨d.value⟩, none)
        | .error e => (h, some e)

/-- A program, from the start. -/
def BalHeap.run (H : Bytes → Bytes) (l : List BalAct) : BalHeap := l.foldl (fun h a => (h.step H a).1) {}

end TF
