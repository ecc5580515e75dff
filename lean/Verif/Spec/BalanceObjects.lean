import Verif.Model.BalanceObjects
/-! # What changing a balance may change -/
namespace TF.Spec

/-- The balance an act is called on, if any. -/
def calledOn : BalAct → Option Nat
  | .output j .. | .add j _ | .height j _ | .time j _ | .blockid j _ => some j
  | _ => none

/-- What a balance accounts for itself, without its multi-signature wallets. -/
def ownPart : AnyBalance → Balance
  | .wallet b => b
  | .multi m => m.base
  | .wallets w => w.base

/-- The balance with another part of its own. -/
def withOwn (b : Balance) : AnyBalance → AnyBalance
  | .wallet _ => .wallet b
  | .multi m => .multi { m with base := b }
  | .wallets w => .wallets { w with base := b }

/-- `output_add` of the three classes, as operations on values. -/
def outputAdded (H : Bytes → Bytes) (o : CoinOutput) (confirmed isSpent : Bool) : AnyBalance → AnyBalance × Option Err
  | .wallet b => let r := b.outputAdd H o confirmed isSpent; (.wallet r.1, r.2)
  | .multi m => let r := m.base.outputAdd H o confirmed isSpent; (.multi { m with base := r.1 }, r.2)
  | .wallets w => let r := w.outputAdd H o confirmed isSpent; (.wallets r.1, r.2)

/-- The multi-signature wallets of the balance `i`, as objects. -/
def walletsOf (h : BalHeap) (i : Nat) : List Nat :=
  match h.bals[i]? with
  | some ⟨.wallets refs, _, _⟩ => refs.map (·.2)
  | _ => []

/-- Two balances with nothing in common: different ones, none is a wallet of the other, and no wallet is one of both. -/
def Apart (h : BalHeap) (i j : Nat) : Prop :=
  i ≠ j ∧ i ∉ walletsOf h j ∧ j ∉ walletsOf h i ∧ ∀ r ∈ walletsOf h i, r ∉ walletsOf h j

/-- No multi-signature wallet: neither one itself nor with any. -/
def NoMulti : AnyBalance → Prop
  | .wallet _ => True
  | .multi _ => False
  | .wallets w => w.wallets = []

/-- A program that merges no balance with multi-signature wallets into another one, and merges nothing into the balance of a
multi-signature wallet. -/
def MergesPlain (H : Bytes → Bytes) (l : List BalAct) : Prop :=
  ∀ pre j k post, l = pre ++ BalAct.add j k :: post →
    (∀ b, (BalHeap.run H pre).bal k = some b → NoMulti b) ∧ (∀ m, (BalHeap.run H pre).bal j ≠ some (.multi m))

/-- The identifier object `b.chain_blockid` hands out. -/
def handedOut (h : BalHeap) (i : Nat) : Option Nat := h.bals[i]?.map (·.idRef)

end TF.Spec
