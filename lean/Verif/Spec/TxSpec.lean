import Verif.Model.Transactions
/-! # Histories on transactions, and what supported means -/
namespace TF.Spec

/-- The transaction versions that exist. -/
def supportedVersions : List Int := [0, 1, 128, 129, 144, 145, 146, 208, 209, 210]

/-- A transaction read from the legacy (version 0) format. -/
def IsLegacy : Tx → Prop
  | .v1 t => t.legacy = true
  | _ => False

/-- One signature handed to a transaction: where, by which key, the signature. -/
structure TxSign where
  target : SigTarget
  key : KeyArg
  sig : BVal

/-- The transaction after a history of signatures, each accepted or refused. -/
def signRun (H : Bytes → Bytes) (t : Tx) (es : List TxSign) : Tx :=
  es.foldl (fun t e => (t.sign H e.target e.key e.sig).1) t

/-- Somebody tries to fulfil one of a transaction's signature requests: the request and the transaction afterwards, and the
exception, if any. -/
def fulfillTx (H : Bytes → Bytes) (t : Tx) (r : TxRequest) (k : KeyArg) (sig : BVal) : (Request × Tx) × Option Err :=
  r.req.fulfillCb H (fun t k s => t.sign H r.target k s) t k sig

/-- The fulfillment that a transaction carries besides its inputs is there: the mint fulfillment of a minting transaction fulfils the
(known) mint condition; the signatures of 3Bot and ERC20 registration transactions are set. -/
def ExtensionFulfilled : Tx → Prop
  | .v1 _ => True
  | .v128 t => ∃ c f, t.parent = some c ∧ t.mintFulfillment = some f ∧ f.isFulfilled c = .ok true
  | .v129 t => ∃ c f, t.parent = some c ∧ t.mintFulfillment = some f ∧ f.isFulfilled c = .ok true
  | .v144 t => ∃ s, t.sig = some s
  | .v145 t => ∃ s, t.sig = some s
  | .v146 t => (∃ s, t.senderSig = some s) ∧ ∃ s, t.receiverSig = some s
  | .v208 _ => True
  | .v209 _ => True
  | .v210 t => ∃ s, t.sig = some s

/-- Every coin input is fulfilled. -/
def CoinInputsFulfilled (t : Tx) : Prop := ∃ l, t.coinInputs = some l ∧ ∀ ci ∈ l, ci.isFulfilled = .ok true
/-- Every blockstake input is fulfilled. -/
def StakeInputsFulfilled (t : Tx) : Prop := ∀ ci ∈ t.stakeInputs, ci.isFulfilled = .ok true

end TF.Spec
