import Verif.Spec.History
/-! # What belongs to a wallet, according to the explorer -/
namespace TF.Spec

/-- The explorer's history of one of the wallet's own addresses. -/
def OwnHistory (C : Client) (own : List UnlockHash) (h : History) : Prop := ∃ u ∈ own, C.unlockhashGet (.str (u.str C.H)) = .ok h

/-- The explorer's history of a multi-signature address that the history of an own address mentions. -/
def SharedHistory (C : Client) (own : List UnlockHash) (h : History) : Prop :=
  ∃ g, OwnHistory C own g ∧ ∃ u ∈ g.multisigs, C.unlockhashGet (.str (u.str C.H)) = .ok h

/-- The history creates the output at its address, by a transaction that is confirmed or not, and does not spend it. -/
def Unspent (H : Bytes → Bytes) (h : History) (co : CoinOutput) (confirmed : Bool) : Prop :=
  CreatedIn H (h.address.str H) h.txs co confirmed ∧ ¬ SpentInHistory h.txs co.id

/-- The histories are coherent, also with each other. -/
structure CoherentAll (C : Client) (P : History → Prop) : Prop where
  each : ∀ h, P h → Coherent C.H (h.address.str C.H) h.txs
  ids : ∀ h h' co c co' c', P h → P h' → CreatedIn C.H (h.address.str C.H) h.txs co c → CreatedIn C.H (h'.address.str C.H) h'.txs co' c' →
    co.id = co'.id → co = co' ∧ c = c'

end TF.Spec
