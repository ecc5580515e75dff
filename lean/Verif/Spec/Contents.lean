import Verif.Spec.Full
/-! # What a transaction says, apart from its signatures -/
namespace TF.Spec

/-- What an output pays: how much (in smallest units), under which condition. -/
def paid (o : CoinOutput) : Nat × Condition := (amount o.value, o.condition)
@[inherit_doc paid] def staked (o : StakeOutput) : Nat × Condition := (o.value.value, o.condition)

/-- The contents of a transaction: everything but signatures, keys of the spenders and looked-up parent outputs. -/
inductive Contents
  | payment (spent : List Hash) (outputs : List (Nat × Condition)) (stakesSpent : List Hash) (stakeOutputs : List (Nat × Condition))
      (fees : List Nat) (data : Bytes)
  | minterDefinition (nonce : Bytes) (minter : Condition) (fees : List Nat) (data : Bytes)
  | coinCreation (nonce : Bytes) (outputs : List (Nat × Condition)) (fees : List Nat) (data : Bytes)
  | botRegistration (addresses : List NetAddr) (names : List BotName) (months : Int) (spent : List Hash) (fee : Nat)
      (refund : Option (Nat × Condition)) (key : PublicKey)
  | botUpdate (bot : Int) (addAddresses removeAddresses : List NetAddr) (addNames removeNames : List BotName) (months : Int)
      (spent : List Hash) (fee : Nat) (refund : Option (Nat × Condition))
  | nameTransfer (sender receiver : Int) (names : List BotName) (spent : Option (List Hash)) (fee : Nat)
      (refund : Option (Nat × Condition))
  | erc20Convert (address : Bytes) (value : Nat) (spent : List Hash) (fee : Nat) (refund : Option (Nat × Condition))
  | erc20Coins (address : UnlockHash) (value fee : Nat) (blockId txId : Bytes)
  | erc20Register (key : PublicKey) (spent : Option (List Hash)) (fee : Nat) (refund : Option (Nat × Condition))

/-- The contents of a transaction. An unset fee is zero, an unset bot id 0, an unset key the default key. -/
def contents : Tx → Contents
  | .v1 t => .payment (t.coinInputs.map (·.parentId)) (t.coinOutputs.map paid) (t.stakeInputs.map (·.parentId)) (t.stakeOutputs.map staked)
      (t.minerFees.map amount) t.data
  | .v128 t => .minterDefinition t.nonce t.mintCondition (t.minerFees.map amount) t.data
  | .v129 t => .coinCreation t.nonce (t.coinOutputs.map paid) (t.minerFees.map amount) t.data
  | .v144 t => .botRegistration t.addresses t.names t.months (t.coinInputs.map (·.parentId)) (amount (t.fee.getD ⟨none⟩)) (t.refund.map paid)
      (t.key.getD .default)
  | .v145 t => .botUpdate (t.botid.getD 0) t.addrsAdd t.addrsRemove t.namesAdd t.namesRemove t.months (t.coinInputs.map (·.parentId))
      (amount (t.fee.getD ⟨none⟩)) (t.refund.map paid)
  | .v146 t => .nameTransfer (t.sender.getD 0) (t.receiver.getD 0) t.names (t.coinInputs.map fun l => l.map (·.parentId))
      (amount (t.fee.getD ⟨none⟩)) (t.refund.map paid)
  | .v208 t => .erc20Convert t.address (amount t.value) (t.coinInputs.map (·.parentId)) (amount (t.fee.getD ⟨none⟩)) (t.refund.map paid)
  | .v209 t => .erc20Coins t.address (amount t.value) (amount (t.fee.getD ⟨none⟩)) t.blockId t.txId
  | .v210 t => .erc20Register (t.key.getD .default) (t.coinInputs.map fun l => l.map (·.parentId)) (amount (t.fee.getD ⟨none⟩))
      (t.refund.map paid)

/-- Inputs that name 32-byte output ids. -/
def KnownIds (l : List Hash) : Prop := ∀ h ∈ l, h.value.length = 32
/-- An output of a legal amount under a condition whose hashes have their 32 bytes. -/
def GoodOutput (o : CoinOutput) : Prop := GoodCurrency o.value ∧ FullCondition o.condition

/-- A transaction ready for signing: parent ids, hashes, keys and nonces have their full length, amounts are legal, network
addresses were made by the library; it is not a legacy transaction. Nothing is asked of signatures. -/
def Signable (L : IpLib) : Tx → Prop
  | .v1 t => t.legacy = false ∧ KnownIds (t.coinInputs.map (·.parentId)) ∧ (∀ o ∈ t.coinOutputs, GoodOutput o) ∧
      KnownIds (t.stakeInputs.map (·.parentId)) ∧ (∀ o ∈ t.stakeOutputs, FullCondition o.condition) ∧ ∀ c ∈ t.minerFees, GoodCurrency c
  | .v128 t => t.nonce.length = 8 ∧ FullCondition t.mintCondition ∧ ∀ c ∈ t.minerFees, GoodCurrency c
  | .v129 t => t.nonce.length = 8 ∧ (∀ o ∈ t.coinOutputs, GoodOutput o) ∧ ∀ c ∈ t.minerFees, GoodCurrency c
  | .v144 t => (∀ x ∈ t.addresses, MadeNet L x) ∧ KnownIds (t.coinInputs.map (·.parentId)) ∧ GoodCurrency (t.fee.getD ⟨none⟩) ∧
      (∀ o ∈ t.refund, GoodOutput o) ∧ FullKey (t.key.getD .default)
  | .v145 t => (∀ x ∈ t.addrsAdd, MadeNet L x) ∧ (∀ x ∈ t.addrsRemove, MadeNet L x) ∧ KnownIds (t.coinInputs.map (·.parentId)) ∧
      GoodCurrency (t.fee.getD ⟨none⟩) ∧ ∀ o ∈ t.refund, GoodOutput o
  | .v146 t => (∀ l ∈ t.coinInputs, KnownIds (l.map (·.parentId))) ∧ GoodCurrency (t.fee.getD ⟨none⟩) ∧ ∀ o ∈ t.refund, GoodOutput o
  | .v208 t => t.address.length = 20 ∧ GoodCurrency t.value ∧ KnownIds (t.coinInputs.map (·.parentId)) ∧
      GoodCurrency (t.fee.getD ⟨none⟩) ∧ ∀ o ∈ t.refund, GoodOutput o
  | .v209 t => FullAddress t.address ∧ GoodCurrency t.value ∧ GoodCurrency (t.fee.getD ⟨none⟩) ∧ t.blockId.length = 32 ∧
      t.txId.length = 32
  | .v210 t => FullKey (t.key.getD .default) ∧ (∀ l ∈ t.coinInputs, KnownIds (l.map (·.parentId))) ∧
      GoodCurrency (t.fee.getD ⟨none⟩) ∧ ∀ o ∈ t.refund, GoodOutput o

end TF.Spec
