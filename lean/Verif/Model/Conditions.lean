import Verif.Model.Primitive
import Verif.Model.Merkle
import Verif.Model.Json
/-!
# types/ConditionTypes.py

`H` is the blake2b-256 digest function (internal/jsutils.py:15-21), a parameter of the model. Nothing is assumed about it
except, where stated, that digests are 32 bytes long.
-/

namespace TF

/-! ## Unlock hashes (addresses) -/

/-- types/ConditionTypes.py:257-308 `UnlockHash` with its `UnlockHashType`. The type is a byte: `UnlockHashType` accepts any
Python value, but one outside 0..255 can be neither printed nor encoded. -/
structure UnlockHash where
  type : UInt8
  hash : Hash
  deriving DecidableEq, Repr

/-- types/ConditionTypes.py:304-308 `UnlockHash()`. -/
def UnlockHash.default : UnlockHash := ⟨0, ⟨[]⟩⟩

/-- types/ConditionTypes.py:355-361 `_checksum`. (`add(self._hash)` writes the hash as an array.) -/
def UnlockHash.checksum (H : Bytes → Bytes) (u : UnlockHash) : Bytes :=
  if u.type = 0 then List.replicate 6 0 else H (u.type :: u.hash.value)

/-- types/ConditionTypes.py:351-353 `__str__`, also `json`. -/
def UnlockHash.str (H : Bytes → Bytes) (u : UnlockHash) : Str :=
  toHex [u.type] ++ u.hash.str ++ toHex ((u.checksum H).take 6)

/-- types/ConditionTypes.py:310-331 `from_json` on a str. A negative type (texts such as `"-1…"`) fails when the checksum is
computed. `int(...)` is `pyInt`. -/
def UnlockHash.fromStr (H : Bytes → Bytes) (s : Str) : Res UnlockHash :=
  if s.length ≠ 78 then .error .valueError
  else match pyInt (s.take 2) with
  | none => .error .valueError
  | some t => match Hash.new (.str ((s.drop 2).take 64)) with
    | .error e => .error e
    | .ok h =>
      if t < 0 then .error .integerOutOfRange
      else if t = 0 then
        if h.value ≠ List.replicate 32 0 then .error .valueError else .ok ⟨0, h⟩
      else if toHex (((⟨UInt8.ofNat t.toNat, h⟩ : UnlockHash).checksum H).take 6) ≠ s.drop (s.length - 12) then .error .valueError
      else .ok ⟨UInt8.ofNat t.toNat, h⟩

/-- types/ConditionTypes.py:310-313 `from_json` on any JSON value. -/
def UnlockHash.fromJson (H : Bytes → Bytes) : Json → Res UnlockHash
  | .str s => UnlockHash.fromStr H s
  | _ => .error .typeError

/-- types/ConditionTypes.py:385-390 `sia_binary_encode`. -/
def UnlockHash.sia (u : UnlockHash) : Out :=
  (siaAddByte (.int u.type.toNat)).andThen (.ok u.hash.enc)
/-- types/ConditionTypes.py:392-397 `rivine_binary_encode`. -/
def UnlockHash.riv (u : UnlockHash) : Out :=
  (rivInt8 u.type.toNat).andThen (.ok u.hash.enc)

/-- An address as a value given to an encoder. -/
def UnlockHash.val (u : UnlockHash) : Val := .obj u.sia u.riv

/-! ## Output locks -/

/-- The argument of `OutputLock` (types/ConditionTypes.py:116-144). The str, timedelta and datetime branches, which read the
clock and the calendar, are represented by the integer they compute. -/
inductive LockVal
  | none
  | lock (v : Int)
  | int (v : Int)
  | computed (v : Int)
  | other

/-- types/ConditionTypes.py:116-144 `OutputLock(value)`: the stored value. -/
def outputLock : LockVal → Res Int
  | .none => .ok 0
  | .lock v => .ok v
  | .int v => if v < 0 then .error .valueError else .ok v
  | .computed v => .ok v
  | .other => .error .typeError

/-- types/ConditionTypes.py:162-167 `is_timestamp`. -/
def lockIsTimestamp (v : Int) : Bool := 500 * 1000 * 1000 ≤ v

/-- types/ConditionTypes.py:169-175 `locked_check`. -/
def lockedCheck (v : Int) (height time : Int) : Bool :=
  if lockIsTimestamp v then time < v else height < v

/-! ## Conditions -/

/-- The five condition classes. A `None` stored address and `UnlockHash()` are indistinguishable through the API (the getters
at 440-443, 541-544, 559-562 return `UnlockHash()`), so is a `None` inner condition and `ConditionUnlockHash()` (650-653).
`hashedSecret = none` is the unset hashed secret, whose getter returns `BinaryData()` (577-580). -/
inductive Condition
  | nil
  | unlockHash (u : UnlockHash)
  | atomicSwap (sender receiver : UnlockHash) (hashedSecret : Option Bytes) (lockTime : Int)
  | lockTime (lock : Int) (inner : Condition)
  | multiSig (owners : List UnlockHash) (required : Int)
  deriving DecidableEq, Repr

/-- types/ConditionTypes.py:9-13 and the `type` properties. -/
def Condition.type : Condition → Nat
  | .nil => 0
  | .unlockHash _ => 1
  | .atomicSwap .. => 2
  | .lockTime .. => 3
  | .multiSig .. => 4

/-- Python's `<=` on str (code points, lexicographic). -/
def strLe : Str → Str → Bool
  | [], _ => true
  | _ :: _, [] => false
  | a :: as, b :: bs => if a.toNat < b.toNat then true else if b.toNat < a.toNat then false else strLe as bs

/-- Insert before the first element that is not smaller. -/
def insertBy {α : Type} (le : α → α → Bool) (x : α) : List α → List α
  | [] => [x]
  | y :: ys => if le x y then x :: y :: ys else y :: insertBy le x ys

/-- Python's `sorted`/`list.sort`: a stable sort (the result of a stable sort does not depend on the algorithm; this is an insertion sort). -/
def stableSort {α : Type} (le : α → α → Bool) (l : List α) : List α := l.foldr (insertBy le) []

/-- types/ConditionTypes.py:707: `sorted(unlockhashes, key=str)`. -/
def sortOwners (H : Bytes → Bytes) (l : List UnlockHash) : List UnlockHash :=
  stableSort (fun a b => strLe (a.str H) (b.str H)) l

/-- types/ConditionTypes.py:577-580: the encoder's view of the `hashed_secret` getter. -/
def hashedSecretData : Option Bytes → BinData
  | none => ⟨[], none, .none⟩
  | some b => ⟨b, some 32, .hex⟩

/-- types/ConditionTypes.py:618-619, also called with a rivine encoder at 532: `add_all(sender, receiver, secret, time)`. -/
def atomicSwapRiv (s r : UnlockHash) (hs : Option Bytes) (t : Int) : Out :=
  rivAddSeq [s.val, r.val, .obj (hashedSecretData hs).sia (hashedSecretData hs).riv, .int t]

/-- Values pushed on the Merkle tree by the multi-signature unlock hash (types/ConditionTypes.py:707-712). -/
def multiSigLeaves (H : Bytes → Bytes) (owners : List UnlockHash) (required : Int) : Res (List Bytes) := do
  let uhs := sortOwners H owners
  let n ← siaEncode [.int uhs.length]
  let ls ← uhs.mapM fun u => siaEncode [u.val]
  let r ← siaEncode [.int required]
  return n :: ls ++ [r]

/-- The `unlockhash` properties: types/ConditionTypes.py:409-411, 439-443, 529-538, 636-638, 705-713. -/
def Condition.unlockhash (H : Bytes → Bytes) : Condition → Res UnlockHash
  | .nil => .ok ⟨0, ⟨[]⟩⟩
  | .unlockHash u => .ok u
  | .atomicSwap s r hs t => do
    let data ← (atomicSwapRiv s r hs t).toRes
    let e ← (siaSliceBytes data).toRes
    return ⟨2, ⟨H e⟩⟩
  | .lockTime _ c => c.unlockhash H
  | .multiSig owners required => do
    let leaves ← multiSigLeaves H owners required
    let r ← merkleRoot H (merklePushAll H leaves)
    return ⟨3, ⟨r⟩⟩

/-- types/ConditionTypes.py:209-214, 663-664 `unwrap`. -/
def Condition.unwrap : Condition → Condition
  | .lockTime _ c => c
  | c => c

/-- types/ConditionTypes.py:197-199, 640-644 the `lock` property. -/
def Condition.lock : Condition → Int
  | .lockTime l _ => l
  | _ => 0

/-! ### JSON -/

/-- types/ConditionTypes.py:224-229 `json`, given the type and the data object. (A data object, when there is one, is a
non-empty dict, hence truthy.) -/
def condJson (type : Nat) : Option Json → Json
  | none => .obj [("type", .int type)]
  | some d => .obj [("type", .int type), ("data", d)]

/-- The `json_data_object` methods: types/ConditionTypes.py:417-418, 457-460, 607-613, 673-677, 748-752. -/
def Condition.jsonData (H : Bytes → Bytes) : Condition → Option Json
  | .nil => none
  | .unlockHash u => some (.obj [("unlockhash", .str (u.str H))])
  | .atomicSwap s r hs t => some (.obj [("sender", .str (s.str H)), ("receiver", .str (r.str H)),
      ("hashedsecret", .str (hashedSecretData hs).str), ("timelock", .int t)])
  | .lockTime l c => some (.obj [("locktime", .int l), ("condition", condJson c.type (c.jsonData H))])
  | .multiSig owners n => some (.obj [("minimumsignaturecount", .int n),
      ("unlockhashes", .arr (owners.map fun u => .str (u.str H)))])

/-- types/ConditionTypes.py:224-229 `json`. -/
def Condition.json (H : Bytes → Bytes) (c : Condition) : Json := condJson c.type (c.jsonData H)

/-- types/ConditionTypes.py:592-599: the `lock_time` setter of an atomic swap condition on an int. -/
def swapLockTime (v : Int) : Res Int := do
  let l ← outputLock (.int v)
  if lockIsTimestamp l then return l else throw .typeError

/-- types/ConditionTypes.py:545-556, 563-574: the sender / receiver setters on an `UnlockHash`. -/
def swapParty (u : UnlockHash) : Res UnlockHash :=
  if u.type = 1 ∨ u.type = 0 then .ok u else .error .valueError

/-- types/ConditionTypes.py:495-496 `AtomicSwapSecretHash(value)` on a JSON value. -/
def secretHashOfJson : Json → Res Bytes
  | .null => .ok []
  | .str s => do return (← BinData.new (.str s) (some 32) .hex).value
  | _ => .error .typeError

/-- types/ConditionTypes.py:601-605. -/
def atomicSwapOfJson (H : Bytes → Bytes) (data : Json) : Res Condition := do
  let s ← swapParty (← UnlockHash.fromJson H (← data.idx "sender"))
  let r ← swapParty (← UnlockHash.fromJson H (← data.idx "receiver"))
  let hs ← secretHashOfJson (← data.idx "hashedsecret")
  let t ← swapLockTime (← (← data.idx "timelock").toInt)
  return .atomicSwap s r (some hs) t

/-- types/ConditionTypes.py:741-746. -/
def multiSigOfJson (H : Bytes → Bytes) (data : Json) : Res Condition := do
  let n ← (← data.idx "minimumsignaturecount").toInt
  let uhs ← (← (← data.idx "unlockhashes").iter).mapM (UnlockHash.fromJson H)
  return .multiSig uhs n

/-- types/ConditionTypes.py:413-415. -/
def nilOfJson : Json → Res Condition
  | .null => .ok .nil
  | .obj [] => .ok .nil
  | _ => .error .valueError

/-- `obj.get('type', 0)` followed by the comparisons with 0..4 (types/ConditionTypes.py:16-27): the type number, or `none`
when it is none of them. -/
def condTypeOf (j : Json) : Res (Option Int) := do
  match ← j.get? "type" with
  | none => return some 0
  | some t => return t.asInt?

/-- `obj.get('data', {})` (types/ConditionTypes.py:189). -/
def condDataOf (j : Json) : Res Json := do
  match ← j.get? "data" with
  | none => return .obj []
  | some d => return d

/-- types/ConditionTypes.py:15-27, 183-190 for the conditions a lock time may wrap; the other kinds are refused (the code parses
them first and then raises `ValueError` at 669-670; when such a nested condition is itself malformed the class of the
exception may differ). -/
def lockInnerOfJson (H : Bytes → Bytes) (j : Json) : Res Condition := do
  match ← condTypeOf j with
  | some 0 => nilOfJson (← condDataOf j)
  | some 1 => do
    let u ← UnlockHash.fromJson H (← (← condDataOf j).idx "unlockhash")
    return .unlockHash u
  | some 4 => multiSigOfJson H (← condDataOf j)
  | _ => throw .valueError

/-- types/ConditionTypes.py:666-671 (`self.lock = int(...)` uses 646-647). -/
def lockTimeOfJson (H : Bytes → Bytes) (data : Json) : Res Condition := do
  let l ← outputLock (.int (← (← data.idx "locktime").toInt))
  let c ← lockInnerOfJson H (← data.idx "condition")
  return .lockTime l c

/-- types/ConditionTypes.py:15-27 `conditions.from_json`. -/
def Condition.fromJson (H : Bytes → Bytes) (j : Json) : Res Condition := do
  match ← condTypeOf j with
  | some 2 => atomicSwapOfJson H (← condDataOf j)
  | some 3 => lockTimeOfJson H (← condDataOf j)
  | _ => lockInnerOfJson H j

/-! ### Binary encodings -/

/-- Encode into a fresh encoder, then hand the bytes on; an exception of the inner encoder propagates before anything is added. -/
def Out.nested (inner : Out) (f : Bytes → Out) : Out :=
  match inner.err with
  | none => f inner.bytes
  | some e => .raise e

/-- The `sia_binary_encode_data` methods: types/ConditionTypes.py:420-421, 462-463, 615-616, 679-682, 754-756. -/
def Condition.siaData : Condition → Out
  | .nil => .ok []
  | .unlockHash u => u.sia
  | .atomicSwap s r hs t => siaAddSeq [s.val, r.val, .obj (hashedSecretData hs).sia (hashedSecretData hs).riv, .int t]
  | .lockTime l c => ((siaInt l).andThen (.ok [UInt8.ofNat c.type])).andThen c.siaData
  | .multiSig owners n => (siaInt n).andThen (siaAddSlice (.seq (owners.map UnlockHash.val)))

/-- The `rivine_binary_encode_data` methods: types/ConditionTypes.py:423-424, 465-466, 618-619, 684-687, 758-760. -/
def Condition.rivData : Condition → Out
  | .nil => .ok []
  | .unlockHash u => u.riv
  | .atomicSwap s r hs t => atomicSwapRiv s r hs t
  | .lockTime l c => ((rivInt64 l).andThen (rivInt8 c.type)).andThen c.rivData
  | .multiSig owners n => (rivInt64 n).andThen (rivAddSlice (.seq (owners.map UnlockHash.val)))

/-- types/ConditionTypes.py:235-242 `sia_binary_encode`. -/
def Condition.sia (c : Condition) : Out :=
  Out.andThen (.ok [UInt8.ofNat c.type]) (c.siaData.nested siaSliceBytes)

/-- types/ConditionTypes.py:248-255 `rivine_binary_encode`. -/
def Condition.riv (c : Condition) : Out :=
  (rivInt8 c.type).andThen (c.rivData.nested rivSliceBytes)

/-- A condition as a value given to an encoder. -/
def Condition.val (c : Condition) : Val := .obj c.sia c.riv

/-! ### from_recipient -/

/-- A list element accepted by `add_unlockhash` (types/ConditionTypes.py:719-727). -/
inductive OwnerArg
  | none
  | uh (u : UnlockHash)
  | str (s : Str)
  | other

/-- types/ConditionTypes.py:719-727 `add_unlockhash`: the address appended. -/
def OwnerArg.resolve (H : Bytes → Bytes) : OwnerArg → Res UnlockHash
  | .none => .ok .default
  | .uh u => .ok u
  | .str s => UnlockHash.fromStr H s
  | .other => .error .typeError

/-- The number-of-signatures argument (types/ConditionTypes.py:733-739). -/
inductive CountArg
  | none
  | int (i : Int)
  | other

/-- types/ConditionTypes.py:733-739 `required_signatures`. -/
def CountArg.resolve : CountArg → Res Int
  | .none => .ok 0
  | .int i => .ok i
  | .other => .error .typeError

/-- types/ConditionTypes.py:693-699, 100-104 `multi_signature_new`. -/
def multiSigNew (H : Bytes → Bytes) (owners : List OwnerArg) (n : CountArg) : Res Condition := do
  let uhs ← owners.mapM (OwnerArg.resolve H)
  let k ← n.resolve
  return .multiSig uhs k

/-- One component of a pair given as recipient: an int or a list of owners (other components are not modelled). -/
inductive PairArg
  | int (i : Int)
  | list (l : List OwnerArg)

/-- What a recipient may be (types/ConditionTypes.py:35-61). -/
inductive Recipient
  | none
  | cond (c : Condition)
  | uh (u : UnlockHash)
  | str (s : Str)
  | bytes (b : Bytes)
  | list (l : List OwnerArg)
  | pair (a b : PairArg)
  | tuple (n : Nat)        -- a tuple of `n ≠ 2` components
  | other

/-- Iterating over an int given where owners are expected (types/ConditionTypes.py:695-697): a zero is falsy and skipped,
another int raises `TypeError`. A list given as count raises `TypeError` (737-738). -/
def pairCondition (H : Bytes → Bytes) : PairArg → PairArg → Res Condition
  | .int i, .list l => multiSigNew H l (.int i)
  | .list l, .int i => multiSigNew H l (.int i)
  | .int i, .int j => if j = 0 then multiSigNew H [] (.int i) else .error .typeError
  | .list l, .list _ => multiSigNew H l .other

/-- types/ConditionTypes.py:34-61: the base condition. -/
def Recipient.base (H : Bytes → Bytes) : Recipient → Res Condition
  | .none => .ok .nil
  | .cond c => .ok c
  | .uh u => .ok (.unlockHash u)
  | .str s => do return .unlockHash (← UnlockHash.fromStr H s)
  | .bytes b => do return .unlockHash (← UnlockHash.fromStr H (toHex b))
  | .list l => multiSigNew H l (.int l.length)
  | .pair a b => pairCondition H a b
  | .tuple _ => .error .valueError
  | .other => .error .typeError

/-- types/ConditionTypes.py:29-68 `from_recipient`; `locktime_new` is 93-98, 626-630. -/
def fromRecipient (H : Bytes → Bytes) (r : Recipient) (lock : LockVal) : Res Condition := do
  let c ← r.base H
  match lock with
  | .none => return c
  | l => do
    let v ← outputLock l
    return .lockTime v c

end TF
