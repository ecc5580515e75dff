import Verif.Spec.Full
import Verif.Spec.Contents
/-! # Transactions that fit the wire format

Whole numbers fit their 8 bytes, hashes, keys and signatures are no longer than theirs, lists have at most 2^20 elements (15 for the lists of
a 3Bot transaction, whose counts share a byte). Nothing else is asked: hashes, keys and signatures may still be unset. -/
namespace TF.Spec

/-- At most 2^20 elements. -/
def Few {α : Type} (l : List α) : Prop := l.length ≤ 2 ^ 20
/-- A number that fits 8 bytes. -/
def Word (v : Int) : Prop := 0 ≤ v ∧ v < 2 ^ 64
/-- A number that fits 4 bytes. -/
def HalfWord (v : Int) : Prop := 0 ≤ v ∧ v < 2 ^ 32
/-- An unset hash or one of at most 32 bytes. -/
def HashFits (h : Hash) : Prop := h.value.length ≤ 32
/-- A legal amount below 2^256 smallest units. -/
def AmountFits (c : Currency) : Prop := GoodCurrency c ∧ amount c < 2 ^ 256

/-- A condition that fits the wire format. A time lock wraps something else than another time lock. -/
def ConditionFits : Condition → Prop
  | .nil => True
  | .unlockHash u => HashFits u.hash
  | .atomicSwap s r hs t => HashFits s.hash ∧ HashFits r.hash ∧ (∀ b, hs = some b → b.length ≤ 32) ∧ Word t
  | .lockTime l c => Word l ∧ c.type ≠ 3 ∧ ConditionFits c
  | .multiSig owners n => Few owners ∧ (∀ u ∈ owners, HashFits u.hash) ∧ Word n

/-- A key and a signature that fit the wire format. -/
def KeyFits (k : PublicKey) : Prop := HashFits k.hash
@[inherit_doc KeyFits] def SigFits (s : Signature) : Prop := s.value.length ≤ 64

/-- A fulfillment that fits the wire format. -/
def FulfillmentFits : Fulfillment → Prop
  | .single k s => KeyFits k ∧ ∀ x, s = some x → SigFits x
  | .multi ps => Few ps ∧ ∀ p ∈ ps, KeyFits p.key ∧ SigFits p.sig
  | .swap k s sec => KeyFits k ∧ (∀ x, s = some x → SigFits x) ∧ ∀ b, sec = some b → b.length ≤ 32

/-- Inputs and outputs that fit the wire format. -/
def InputFits (ci : CoinInput) : Prop := HashFits ci.parentId ∧ FulfillmentFits ci.fulfillment
@[inherit_doc InputFits] def StakeInputFits (ci : StakeInput) : Prop := HashFits ci.parentId ∧ FulfillmentFits ci.fulfillment
@[inherit_doc InputFits] def OutputFits (co : CoinOutput) : Prop := AmountFits co.value ∧ ConditionFits co.condition
@[inherit_doc InputFits] def StakeOutputFits (o : StakeOutput) : Prop := o.value.value < 2 ^ 256 ∧ ConditionFits o.condition

/-- A list of few things that fit. -/
def AllFit {α : Type} (P : α → Prop) (l : List α) : Prop := Few l ∧ ∀ x ∈ l, P x

/-- At most 15 things that fit: two such counts share a byte. -/
def CountFits {α : Type} (P : α → Prop) (l : List α) : Prop := l.length ≤ 15 ∧ ∀ x ∈ l, P x

/-- A transaction that fits the wire format; not a legacy one. -/
def TxFits (L : IpLib) : Tx → Prop
  | .v1 t => t.legacy = false ∧ AllFit InputFits t.coinInputs ∧ AllFit OutputFits t.coinOutputs ∧ AllFit StakeInputFits t.stakeInputs ∧
      AllFit StakeOutputFits t.stakeOutputs ∧ AllFit AmountFits t.minerFees ∧ t.data.length ≤ 2 ^ 32
  | .v128 t => (∀ f, t.mintFulfillment = some f → FulfillmentFits f) ∧ ConditionFits t.mintCondition ∧ AllFit AmountFits t.minerFees ∧
      t.data.length ≤ 2 ^ 32
  | .v129 t => (∀ f, t.mintFulfillment = some f → FulfillmentFits f) ∧ AllFit OutputFits t.coinOutputs ∧ AllFit AmountFits t.minerFees ∧
      t.data.length ≤ 2 ^ 32
  | .v144 t => CountFits (MadeNet L) t.addresses ∧ CountFits MadeName t.names ∧ (0 ≤ t.months ∧ t.months ≤ 24) ∧ (∀ c, t.fee = some c → AmountFits c) ∧
      AllFit InputFits t.coinInputs ∧ (∀ o, t.refund = some o → OutputFits o) ∧ (∀ k, t.key = some k → KeyFits k) ∧ ∀ s, t.sig = some s → SigFits s
  | .v145 t => (∀ i, t.botid = some i → HalfWord i) ∧ CountFits (MadeNet L) t.addrsAdd ∧ CountFits (MadeNet L) t.addrsRemove ∧
      CountFits MadeName t.namesAdd ∧ CountFits MadeName t.namesRemove ∧ (0 ≤ t.months ∧ t.months ≤ 24) ∧ (∀ c, t.fee = some c → AmountFits c) ∧
      AllFit InputFits t.coinInputs ∧ (∀ o, t.refund = some o → OutputFits o) ∧ ∀ s, t.sig = some s → SigFits s
  | .v146 t => (∀ i, t.sender = some i → HalfWord i) ∧ (∀ i, t.receiver = some i → HalfWord i) ∧ CountFits MadeName t.names ∧
      (∀ c, t.fee = some c → AmountFits c) ∧ (∃ l, t.coinInputs = some l ∧ AllFit InputFits l) ∧ (∀ o, t.refund = some o → OutputFits o) ∧
      (∀ s, t.senderSig = some s → SigFits s) ∧ ∀ s, t.receiverSig = some s → SigFits s
  | .v208 t => AmountFits t.value ∧ (∀ c, t.fee = some c → AmountFits c) ∧ AllFit InputFits t.coinInputs ∧ ∀ o, t.refund = some o → OutputFits o
  | .v209 t => HashFits t.address.hash ∧ AmountFits t.value ∧ ∀ c, t.fee = some c → AmountFits c
  | .v210 t => (∀ k, t.key = some k → KeyFits k) ∧ (∀ s, t.sig = some s → SigFits s) ∧ (∀ c, t.fee = some c → AmountFits c) ∧
      (∃ l, t.coinInputs = some l ∧ AllFit InputFits l) ∧ ∀ o, t.refund = some o → OutputFits o

/-- An input a legacy transaction can spend: not one of a multi-signature condition, there is no place for more than one signature. -/
def OneSigner : Fulfillment → Prop
  | .multi _ => False
  | _ => True

/-- A legacy transaction that fits the wire format. -/
def LegacyFits (t : TxV1) : Prop :=
  t.legacy = true ∧ AllFit InputFits t.coinInputs ∧ AllFit OutputFits t.coinOutputs ∧ AllFit StakeInputFits t.stakeInputs ∧
    AllFit StakeOutputFits t.stakeOutputs ∧ AllFit AmountFits t.minerFees ∧ t.data.length ≤ 2 ^ 32 ∧
    (∀ ci ∈ t.coinInputs, OneSigner ci.fulfillment) ∧ ∀ ci ∈ t.stakeInputs, OneSigner ci.fulfillment

/-- The transaction has something to sign at this target. -/
def HasTarget (t : Tx) : SigTarget → Prop
  | .coin i => ∃ l, t.coinInputs = some l ∧ i < l.length
  | .stake i => i < t.stakeInputs.length
  | .mint => match t with
    | .v128 m => m.mintFulfillment ≠ none
    | .v129 m => m.mintFulfillment ≠ none
    | _ => False
  | .self _ => True

end TF.Spec
