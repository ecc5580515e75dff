import Verif.Model.Hash
import Verif.Model.Crypto
import Verif.Model.Merkle
import Verif.Model.Fulfillments
import Verif.Model.TxJson
import Verif.Model.TxBuild
import Verif.Model.Duration
import Verif.Spec.Address
/-!
# The model run on the data in the tests of the repository

Not proofs about all inputs, but a check that the model says what the code says: the transactions, conditions, fulfillments, trees and encodings in the
tests of the repository (`/repo/tests`), with the values these tests expect of the code, computed by the model with the actual hash functions
(`Verif/Model/Hash.lean`). Each example is evaluated by the kernel.
-/
namespace TF.Props
open TF TF.Spec TF.Hash

theorem toBytesLE_length' (n k : Nat) : (toBytesLE n k).length = n := by
  induction n generalizing k with
  | zero => rfl
  | succ n ih => simp [toBytesLE, ih]

/-- The theorems for hash functions with 32 bytes of output hold of the hash functions the code uses. -/
theorem blake2b_digest : Digest32 blake2b := fun x => by simp [blake2b, toBytesLE_length']
@[inherit_doc blake2b_digest] theorem sha256_digest : Digest32 sha256 := fun x => by simp [sha256, toBytesLE_length']

/-- The `n` bytes which are the digits of the number to the base 256, and their hexadecimal digits. (Long texts are written as numbers here: the
kernel takes very long to find the characters of a string literal.) -/
def bytes (n k : Nat) : Option Bytes := some (toBytesBE n k)
@[inherit_doc bytes] def text (n k : Nat) : Str := toHex (toBytesBE n k)

/-- An `ipaddress` which knows the addresses in the tests. -/
def testIp : IpLib where
  parse s := if s = "91.198.174.192".toList then some [91, 198, 174, 192] else if s = "127.0.0.1".toList then some [127, 0, 0, 1] else none
  print b := if b = [91, 198, 174, 192] then "91.198.174.192".toList else "127.0.0.1".toList

/-- The transaction read from the JSON. -/
def txOf (j : Json) : Option Tx := (Tx.fromJson testIp blake2b j).toOption
/-- `from_json(j).signature_hash_get(extras)`. -/
def sigHash (j : Json) (extras : List Val) : Option Bytes := (txOf j).bind fun t => (t.sigHash blake2b extras).toOption
/-- `from_json(j).binary_encode()`. -/
def encoded (j : Json) : Option Bytes := (txOf j).bind fun t => (t.binaryEncode blake2b).toOption
/-- `from_json(j).coin_outputid_new(i)`, `from_json(j).blockstake_outputid_new(i)`. -/
def coinId (j : Json) (i : Int) : Option Bytes := (txOf j).bind fun t => ((t.coinOutputIdInput blake2b i).toOption).map blake2b
@[inherit_doc coinId] def blockstakeId (j : Json) (i : Int) : Option Bytes := (txOf j).bind fun t => ((t.stakeOutputIdInput blake2b i).toOption).map blake2b
/-- The identifier of the transaction. -/
def idOf (j : Json) : Option Bytes := (txOf j).bind fun t => ((t.idInput blake2b).toOption).map blake2b
/-- The constants for the signatures of 3Bots. -/
def specifier (b : Bytes) : Val := .obj (.ok b) (.ok b)
/-- `str(from_json(j).required_bot_fees)`. -/
def fees (j : Json) : Option Str := (txOf j).bind fun
  | .v144 t => t.requiredFees.toOption.map fun c => c.str true
  | .v145 t => t.requiredFees.toOption.map fun c => c.str true
  | .v146 t => t.requiredFees.toOption.map fun c => c.str true
  | _ => none
/-- The address and the value of the first coin output. -/
def paidTo (j : Json) : Option Str := (txOf j).bind fun t => t.coinOutputs.head?.bind fun o => (o.condition.unlockhash blake2b).toOption.map (UnlockHash.str blake2b)
@[inherit_doc paidTo] def paid (j : Json) : Option Str := (txOf j).bind fun t => t.coinOutputs.head?.map fun o => o.value.str true

/-- `ConditionTypes.from_json(j)`: its encodings, its address and its JSON. -/
def condSia (j : Json) : Option Bytes := (Condition.fromJson blake2b j).toOption.bind fun c => (siaEncode [c.val]).toOption
@[inherit_doc condSia] def condRivine (j : Json) : Option Bytes := (Condition.fromJson blake2b j).toOption.bind fun c => (rivEncode [c.val]).toOption
@[inherit_doc condSia] def condAddress (j : Json) : Option Str := (Condition.fromJson blake2b j).toOption.bind fun c => (c.unlockhash blake2b).toOption.map (UnlockHash.str blake2b)
@[inherit_doc condSia] def condBack (j : Json) : Option Json := (Condition.fromJson blake2b j).toOption.map fun c => c.json blake2b
/-- `FulfillmentTypes.from_json(j)`: its encodings, its JSON and `is_fulfilled`. -/
def fulSia (j : Json) : Option Bytes := (Fulfillment.fromJson j).toOption.bind fun f => (siaEncode [f.val]).toOption
@[inherit_doc fulSia] def fulRivine (j : Json) : Option Bytes := (Fulfillment.fromJson j).toOption.bind fun f => (rivEncode [f.val]).toOption
@[inherit_doc fulSia] def fulBack (j : Json) : Option Json := (Fulfillment.fromJson j).toOption.map Fulfillment.json
@[inherit_doc fulSia] def fulfilled (j : Json) (c : Condition) : Option Bool := (Fulfillment.fromJson j).toOption.bind fun f => (f.isFulfilled c).toOption

/-- The texts in the tests have no fractions and no dates. -/
def wholeSeconds : FloatSeconds := fun _ => .error .valueError
@[inherit_doc wholeSeconds] def noCalendar : Calendar := ⟨[], fun _ _ => .error .valueError, fun _ => .error .valueError⟩

mutual
/-- The texts of a JSON value in order, with marks for its structure. -/
def flat : Json → List (Nat × Int × Str)
  | .null => [(0, 0, [])]
  | .bool b => [(1, if b then 1 else 0, [])]
  | .int i => [(2, i, [])]
  | .str s => [(3, 0, s)]
  | .arr l => (4, l.length, []) :: flatAll l
  | .obj l => (5, l.length, []) :: flatFields l
  | .ver n => [(6, n, [])]
@[inherit_doc flat] def flatAll : List Json → List (Nat × Int × Str)
  | [] => []
  | x :: l => flat x ++ flatAll l
@[inherit_doc flat] def flatFields : List (String × Json) → List (Nat × Int × Str)
  | [] => []
  | (k, x) :: l => (7, 0, k.toList) :: flat x ++ flatFields l
end
