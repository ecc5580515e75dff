import Verif.Spec.Wire
import Verif.Spec.Encodable
import Mathlib.Data.List.Forall2
/-! # The JSON form of legacy (version 0) transactions, as the network writes it

Inputs name their parent output and, inside an unlocker, a key and a signature; outputs pay a value to an unlock hash. Lists that are empty may be
missing or null, and objects may have more fields. -/
namespace TF.Spec

/-- An input. -/
structure LegacyIn where
  parent : Hash
  key : PublicKey
  sig : Bytes
/-- An output, of coins or blockstakes. -/
structure LegacyOut where
  value : Nat
  address : UnlockHash

/-- The JSON of an input. -/
def IsInput (x : Json) (i : LegacyIn) : Prop :=
  ∃ f u c s, x = .obj f ∧ jget f "parentid" = some (.str i.parent.str) ∧ jget f "unlocker" = some (.obj u) ∧ jget u "condition" = some (.obj c) ∧
    jget c "publickey" = some (.str i.key.str) ∧ jget u "fulfillment" = some (.obj s) ∧ jget s "signature" = some (.str (toHex i.sig))
/-- The JSON of an output: without value it is worth nothing. -/
def IsOutput (H : Bytes → Bytes) (x : Json) (o : LegacyOut) : Prop :=
  ∃ f, x = .obj f ∧ (jget f "value" = some (.str (natStr o.value)) ∨ jget f "value" = none ∧ o.value = 0) ∧
    jget f "unlockhash" = some (.str (o.address.str H))
/-- The JSON of a fee. -/
def IsFee (x : Json) (n : Nat) : Prop := x = .str (natStr n)

/-- A list under a key, which may be missing or null if it is empty. -/
def Listed {α : Type} (d : List (String × Json)) (k : String) (R : Json → α → Prop) (l : List α) : Prop :=
  (l = [] ∧ (jget d k = none ∨ jget d k = some .null)) ∨ ∃ xs, jget d k = some (.arr xs) ∧ List.Forall₂ R xs l

/-- What a legacy transaction says. -/
structure Legacy where
  coinInputs : List LegacyIn
  coinOutputs : List LegacyOut
  stakeInputs : List LegacyIn
  stakeOutputs : List LegacyOut
  fees : List Nat
  data : Bytes

/-- The JSON of a legacy transaction. -/
def LegacyJson (H : Bytes → Bytes) (j : Json) (t : Legacy) : Prop :=
  ∃ top d, j = .obj top ∧ jget top "version" = some (.int 0) ∧ jget top "data" = some (.obj d) ∧
    Listed d "coininputs" IsInput t.coinInputs ∧ Listed d "coinoutputs" (IsOutput H) t.coinOutputs ∧
    Listed d "blockstakeinputs" IsInput t.stakeInputs ∧ Listed d "blockstakeoutputs" (IsOutput H) t.stakeOutputs ∧
    Listed d "minerfees" IsFee t.fees ∧
    (jget d "arbitrarydata" = some (.str (StrEnc.base64.toStr t.data)) ∨ (t.data = [] ∧ (jget d "arbitrarydata" = none ∨ jget d "arbitrarydata" = some .null)))

/-- Inputs with a complete output id, key and signature; outputs to legal addresses; amounts the decimal context can hold. -/
structure Legacy.Full (t : Legacy) : Prop where
  inputs : ∀ i ∈ t.coinInputs ++ t.stakeInputs, i.parent.value.length = 32 ∧ FullKey i.key ∧ i.sig.length = 64
  addresses : ∀ o ∈ t.coinOutputs ++ t.stakeOutputs, CanonicalAddress o.address
  values : ∀ o ∈ t.coinOutputs, o.value < 10 ^ 28
  fees : ∀ n ∈ t.fees, n < 10 ^ 28

/-- Few inputs, outputs and fees, and data and amounts of blockstakes that fit their lengths. -/
structure Legacy.Fits (t : Legacy) : Prop where
  coinInputs : Few t.coinInputs
  coinOutputs : Few t.coinOutputs
  stakeInputs : Few t.stakeInputs
  stakeOutputs : Few t.stakeOutputs
  fees : Few t.fees
  data : t.data.length ≤ 2 ^ 32
  stakes : ∀ o ∈ t.stakeOutputs, o.value < 2 ^ 256

/-- The bytes of a legacy transaction on the wire: the identity of the transaction is their hash. -/
def Legacy.encoding (t : Legacy) : Bytes :=
  let input (i : LegacyIn) : Bytes := i.parent.value ++ 1 :: Wire.slice .sia (Wire.key .sia i.key) ++ Wire.slice .sia i.sig
  let output (o : LegacyOut) : Bytes := Wire.slice .sia (Wire.be o.value) ++ Wire.address o.address
  0 :: Wire.list .sia input t.coinInputs ++ Wire.list .sia output t.coinOutputs ++ Wire.list .sia input t.stakeInputs ++
    Wire.list .sia output t.stakeOutputs ++ Wire.list .sia (fun n => Wire.slice .sia (Wire.be n)) t.fees ++ Wire.slice .sia t.data

end TF.Spec
