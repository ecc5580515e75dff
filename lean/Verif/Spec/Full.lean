import Verif.Spec.Address
import Verif.Spec.Amount
import Verif.Spec.Signing
import Verif.Spec.Ip
import Verif.Model.TxJson
/-! # Complete inputs, outputs and transactions: nothing is left at its unset default, amounts are within what the decimal
context can hold -/
namespace TF.Spec

/-- An amount of money below 10^28 smallest units (10^19 TFT). -/
def SaneAmount (c : Currency) : Prop := GoodCurrency c ∧ amount c < 10 ^ 28

/-- An input that names a 32-byte output id and is completely signed. -/
def FullCoinInput (ci : CoinInput) : Prop := ci.parentId.value.length = 32 ∧ FullFulfillment ci.fulfillment
@[inherit_doc FullCoinInput]
def FullStakeInput (ci : StakeInput) : Prop := ci.parentId.value.length = 32 ∧ FullFulfillment ci.fulfillment
/-- An output of a sane amount under a condition the chain accepts. -/
def SaneCoinOutput (co : CoinOutput) : Prop := SaneAmount co.value ∧ CanonicalCondition co.condition
@[inherit_doc SaneCoinOutput]
def SaneStakeOutput (co : StakeOutput) : Prop := CanonicalCondition co.condition

/-- A network address made from text, a number or nothing. -/
def MadeNet (L : IpLib) (a : NetAddr) : Prop := ∃ v, (∀ x, v ≠ NetArg.net x) ∧ NetAddr.new L v = .ok a
/-- A bot name made from text or nothing. -/
def MadeName (n : BotName) : Prop := n.value = [] ∨ ∃ s, BotName.new (.str s) = .ok n

/-- A signature that is there, encoded as an array. -/
def FullTxSig (s : Signature) : Prop := s.value.length = 64 ∧ s.asArray = true

/-- A complete transaction (not a legacy one). -/
def FullTx (L : IpLib) : Tx → Prop
  | .v1 t => t.legacy = false ∧ (∀ x ∈ t.coinInputs, FullCoinInput x) ∧ (∀ x ∈ t.coinOutputs, SaneCoinOutput x) ∧
      (∀ x ∈ t.stakeInputs, FullStakeInput x) ∧ (∀ x ∈ t.stakeOutputs, SaneStakeOutput x) ∧ ∀ x ∈ t.minerFees, SaneAmount x
  | .v128 t => (∃ f, t.mintFulfillment = some f ∧ FullFulfillment f) ∧ CanonicalCondition t.mintCondition ∧
      ∀ x ∈ t.minerFees, SaneAmount x
  | .v129 t => (∃ f, t.mintFulfillment = some f ∧ FullFulfillment f) ∧ (∀ x ∈ t.coinOutputs, SaneCoinOutput x) ∧
      ∀ x ∈ t.minerFees, SaneAmount x
  | .v144 t => (∀ x ∈ t.addresses, MadeNet L x) ∧ (∀ x ∈ t.names, MadeName x) ∧ SaneAmount (feeOr t.fee) ∧
      (∀ x ∈ t.coinInputs, FullCoinInput x) ∧ (∀ x ∈ t.refund, SaneCoinOutput x) ∧
      (∃ k, t.key = some k ∧ FullKey k) ∧ ∃ s, t.sig = some s ∧ FullTxSig s
  | .v145 t => (∀ x ∈ t.addrsAdd, MadeNet L x) ∧ (∀ x ∈ t.addrsRemove, MadeNet L x) ∧ (∀ x ∈ t.namesAdd, MadeName x) ∧
      (∀ x ∈ t.namesRemove, MadeName x) ∧ SaneAmount (feeOr t.fee) ∧ (∀ x ∈ t.coinInputs, FullCoinInput x) ∧
      (∀ x ∈ t.refund, SaneCoinOutput x) ∧ ∃ s, t.sig = some s ∧ FullTxSig s
  | .v146 t => (∀ x ∈ t.names, MadeName x) ∧ SaneAmount (feeOr t.fee) ∧
      (∃ l, t.coinInputs = some l ∧ ∀ x ∈ l, FullCoinInput x) ∧ (∀ x ∈ t.refund, SaneCoinOutput x) ∧
      (∃ s, t.senderSig = some s ∧ FullTxSig s) ∧ ∃ s, t.receiverSig = some s ∧ FullTxSig s
  | .v208 t => (t.address.length = 0 ∨ t.address.length = 20) ∧ SaneAmount t.value ∧ SaneAmount (feeOr t.fee) ∧
      (∀ x ∈ t.coinInputs, FullCoinInput x) ∧ ∀ x ∈ t.refund, SaneCoinOutput x
  | .v209 t => CanonicalAddress t.address ∧ SaneAmount t.value ∧ SaneAmount (feeOr t.fee) ∧
      (t.blockId.length = 0 ∨ t.blockId.length = 32) ∧ (t.txId.length = 0 ∨ t.txId.length = 32)
  | .v210 t => (∃ k, t.key = some k ∧ FullKey k) ∧ (∃ s, t.sig = some s ∧ FullTxSig s) ∧ SaneAmount (feeOr t.fee) ∧
      (∃ l, t.coinInputs = some l ∧ ∀ x ∈ l, FullCoinInput x) ∧ ∀ x ∈ t.refund, SaneCoinOutput x

end TF.Spec
