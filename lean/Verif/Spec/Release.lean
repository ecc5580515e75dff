import Verif.Spec.Circulation
/-! # Contracts the explorers know -/
namespace TF.Spec

/-- Asked for the output, the explorers answer with the transaction that creates it and no other. -/
def ListedAlone (C : Client) (co : CoinOutput) : Prop :=
  ∃ resp e creation, C.get ("/explorer/hashes/".toList ++ co.id.str) = .ok resp ∧ Entries resp "coinoutputid" [e] ∧ parseTx C.L C.H e = .ok creation ∧
    co ∈ creation.tx.coinOutputs

/-- The transaction spends the output, all of it goes to the address, apart from the miner fee, and the network can take it: into any ids nobody has used. -/
def Releases (W : SwapWorld) (S : ChainState) (co : CoinOutput) (u : UnlockHash) (t : Tx) : Prop :=
  t.coinInputs.map (List.map CoinInput.parentId) = some [co.id] ∧ t.coinOutputs.map pays = [(amount co.value - amount W.fee, .unlockHash u)] ∧ ClaimOn W S t ∧
    ∀ id : Hash, id.value.length = 32 → ¬ SpentOn S id → (∀ co', CreatedOn S co' → co'.id ≠ id) → ∃ S', Accepts S t S'

end TF.Spec
