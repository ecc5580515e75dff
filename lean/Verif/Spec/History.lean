import Verif.Spec.Client
import Verif.Spec.Wallet
/-! # What the history of an address says -/
namespace TF.Spec

/-- The output belongs to the address with this text. -/
def AtAddress (H : Bytes → Bytes) (a : Str) (co : CoinOutput) : Prop := ∃ u, co.condition.unlockhash H = .ok u ∧ u.str H = a

/-- A transaction of the history, confirmed or not, creates this output, and it belongs to the address. -/
def CreatedIn (H : Bytes → Bytes) (a : Str) (txs : List ChainTx) (co : CoinOutput) (confirmed : Bool) : Prop :=
  ∃ t ∈ txs, t.unconfirmed = !confirmed ∧ co ∈ t.tx.coinOutputs ∧ AtAddress H a co

/-- A transaction of the history spends the output with this id. -/
def SpentInHistory (txs : List ChainTx) (id : Hash) : Prop := ∃ t ∈ txs, Spends t.tx id

/-- The history is coherent: an id stands for one output, created by a confirmed transaction or by an unconfirmed one, and an output that
belongs to the address when it is created belongs to it when it is spent. -/
structure Coherent (H : Bytes → Bytes) (a : Str) (txs : List ChainTx) : Prop where
  ids : ∀ co c co' c', CreatedIn H a txs co c → CreatedIn H a txs co' c' → co.id = co'.id → co = co' ∧ c = c'
  parents : ∀ t ∈ txs, ∀ ins, t.tx.coinInputs = some ins → ∀ ci ∈ ins, ∀ co c, CreatedIn H a txs co c → ci.parentId = co.id →
    AtAddress H a ci.parentOutput

/-- The transaction sets the mint condition (version 128). -/
def IsMintDefinition : Tx → Prop
  | .v128 _ => True
  | _ => False

/-- Unconfirmed transactions come first, the others by decreasing height. -/
def NewestFirst (l : List ChainTx) : Prop :=
  l.Pairwise fun a b => a.unconfirmed = true ∨ b.unconfirmed = false ∧ b.height ≤ a.height

/-- The balance holds exactly the outputs of the address that the history creates and does not spend, each once: as confirmed ones those of
confirmed transactions, as unconfirmed ones the others. -/
structure BalanceOf (H : Bytes → Bytes) (a : Str) (txs : List ChainTx) (b : Balance) : Prop where
  confirmed : ∀ co, co ∈ b.outputs.values ↔ CreatedIn H a txs co true ∧ ¬ SpentInHistory txs co.id
  unconfirmed : ∀ co, co ∈ b.unconf.values ↔ CreatedIn H a txs co false ∧ ¬ SpentInHistory txs co.id
  once : ((counted b).map CoinOutput.id).Nodup

/-- The balance knows the state of the chain. -/
def KnowsChain (b : Balance) (i : ChainInfo) : Prop := b.time = i.time ∧ b.height = i.height ∧ b.blockid = i.blockid

end TF.Spec
