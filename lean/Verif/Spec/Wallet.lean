import Verif.Spec.Full
import Verif.Model.Balance
/-! # Histories of balances, and what money there is -/
namespace TF.Spec

/-- What happens to a balance: an output is reported, or the state of the chain becomes known. -/
inductive BalEvent
  | report (output : CoinOutput) (confirmed spent : Bool)
  | chain (time height : Int)

/-- The balance after one event, whether the call returned or raised. -/
def balStep (H : Bytes → Bytes) (b : Balance) : BalEvent → Balance
  | .report o c s => (b.outputAdd H o c s).1
  | .chain t h => { b with time := t, height := h }

/-- A new balance after a history of events. -/
def balRun (H : Bytes → Bytes) (es : List BalEvent) : Balance := es.foldl (balStep H) {}

/-- The outputs a balance offers for spending. -/
def spendable (b : Balance) : List CoinOutput := b.available ++ b.unconfAvailable

/-- The outputs a balance counts as its own, available or locked, confirmed or not. -/
def counted (b : Balance) : List CoinOutput := b.outputs.values ++ b.unconf.values

/-- The output with this id was reported spent (confirmed or not) at some point of the history. -/
def ReportedSpent (es : List BalEvent) (id : Hash) : Prop := ∃ o c, .report o c true ∈ es ∧ o.id = id

/-- No output is reported as unconfirmed after it was reported as confirmed. -/
def ConfirmationsStay (es : List BalEvent) : Prop :=
  ∀ before o mid o' after, es = before ++ .report o true false :: mid ++ .report o' false false :: after → o.id ≠ o'.id

/-- The balance of all wallets after one report, whether it returned or raised. -/
def walletsStep (H : Bytes → Bytes) (w : Wallets) : BalEvent → Wallets
  | .report o c s => (w.outputAdd H o c s).1
  | .chain t h => { w with base := { w.base with time := t, height := h } }

/-- A new balance of wallets after a history. -/
def walletsRun (H : Bytes → Bytes) (es : List BalEvent) : Wallets := es.foldl (walletsStep H) {}

/-- All outputs offered for spending, by the personal wallet and the multi-signature wallets. -/
def walletsSpendable (w : Wallets) : List CoinOutput := spendable w.base ++ w.wallets.flatMap fun p => spendable p.2.base

/-- Total amount of some outputs, in smallest units. -/
def total (l : List CoinOutput) : Nat := (l.map fun co => amount co.value).sum

/-- Outputs of legal amounts that together stay below 10^28 smallest units (10^19 TFT), where decimal arithmetic is exact. -/
def SaneOutputs (l : List CoinOutput) : Prop := (∀ co ∈ l, GoodCurrency co.value) ∧ total l < 10 ^ 28

/-! ## Funding -/

/-- The text `s` reads as the address `u`. -/
def Names (H : Bytes → Bytes) (s : Str) (u : UnlockHash) : Prop := UnlockHash.fromJson H (.str s) = .ok u

/-- A source argument, text or address, stands for the address `u`. -/
def ArgNames (H : Bytes → Bytes) : SourceArg → UnlockHash → Prop
  | .str s, u => Names H s u
  | .uh v, u => u = v
  | .other, _ => False

/-- `u` is one of the requested source addresses. Without a source every address of the personal wallet is requested. -/
def Asked (H : Bytes → Bytes) : Source → UnlockHash → Prop
  | .none, _ => True
  | .one s, u => ArgNames H s u
  | .list l, u => ∃ s ∈ l, ArgNames H s u

/-- An output may be used to fund from the given source: the personal wallet offers it and its address is requested, or a multi-signature
wallet whose address is requested offers it. -/
inductive Eligible (H : Bytes → Bytes) (w : Wallets) (src : Source) (co : CoinOutput) : Prop
  | personal (u : UnlockHash) (offered : co ∈ spendable w.base) (address : co.condition.unlockhash H = .ok u) (asked : Asked H src u)
  | multi (name : Str) (m : MultiBalance) (u : UnlockHash) (wallet : (name, m) ∈ w.wallets) (offered : co ∈ spendable m.base)
      (names : Names H name u) (given : src ≠ .none) (asked : Asked H src u)

/-- Outputs are filed where `output_add` files them: the personal wallet holds outputs of addresses that are not multi-signature ones, a
multi-signature wallet is filed under the text of a multi-signature address. -/
structure WellFiled (H : Bytes → Bytes) (w : Wallets) : Prop where
  personal : ∀ co ∈ spendable w.base, ∃ u, co.condition.unlockhash H = .ok u ∧ u.type ≠ 3
  multi : ∀ p ∈ w.wallets, ∃ u, Names H p.1 u ∧ u.type = 3

/-- The source is one multi-signature wallet: no personal address is asked for, and at most one of the multi-signature wallets is. -/
def OneMultiSource (H : Bytes → Bytes) (w : Wallets) (src : Source) : Prop :=
  src ≠ .none ∧ (∀ u, Asked H src u → u.type = 3) ∧
    w.wallets.Pairwise fun p q => ¬ ((∃ u, Asked H src u ∧ Names H p.1 u) ∧ ∃ u, Asked H src u ∧ Names H q.1 u)

/-- Total amount of the parent outputs of some inputs. -/
def inputsTotal (ins : List CoinInput) : Nat := total (ins.map CoinInput.parentOutput)

/-- The outputs a drain is to spend: the available ones, and on request the unconfirmed available ones. -/
def toDrain (b : Balance) (unconfirmed : Bool) : List CoinOutput := if unconfirmed then spendable b else b.available

end TF.Spec
