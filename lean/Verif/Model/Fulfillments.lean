import Verif.Model.Crypto
/-!
# types/FulfillmentTypes.py
-/

namespace TF

/-! ## Signatures -/

/-- types/FulfillmentTypes.py:56-66 `ED25519Signature`: a `BinaryData` with fixed size 64 and encoding `'hex'`, plus `_as_array`. -/
structure Signature where
  value : Bytes
  asArray : Bool
  deriving DecidableEq, Repr

/-- types/FulfillmentTypes.py:62-66 (the setter is types/PrimitiveTypes.py:67-88). -/
def Signature.new (v : BVal) (asArray : Bool) : Res Signature := do
  let d ← BinData.new v (some 64) .hex
  return ⟨d.value, asArray⟩

/-- `ED25519Signature()`. -/
def Signature.default : Signature := ⟨[], false⟩

/-- types/FulfillmentTypes.py:68-74 `from_json`. -/
def Signature.fromJson (j : Json) (asArray : Bool) : Res Signature :=
  match j with
  | .null => Signature.new .none asArray
  | .str s => Signature.new (if s = [] then .none else .str s) asArray
  | _ => .error .typeError

/-- types/PrimitiveTypes.py:93-100 `json` / `__str__` of a signature. -/
def Signature.str (s : Signature) : Str := toHex s.value

/-- types/FulfillmentTypes.py:76-81 `sia_binary_encode`. -/
def Signature.sia (s : Signature) : Out := siaSliceBytes s.value
/-- types/FulfillmentTypes.py:83-91 `rivine_binary_encode`. -/
def Signature.riv (s : Signature) : Out := if s.asArray then .ok s.value else rivSliceBytes s.value
/-- A signature as a value given to an encoder. -/
def Signature.val (s : Signature) : Val := .obj s.sia s.riv

/-- A signature given to a setter, seen as `BinaryData`. -/
def Signature.arg (s : Signature) : BVal := .data ⟨s.value, some 64, .hex⟩

/-! ## Fulfillments -/

/-- types/FulfillmentTypes.py:402-410 `PublicKeySignaturePair`. A `None` key is indistinguishable from `PublicKey()` and a `None`
signature from `ED25519Signature()` (getters 418-422, 432-436). -/
structure KeySig where
  key : PublicKey
  sig : Signature
  deriving DecidableEq, Repr

/-- `PublicKey()` (types/CryptoTypes.py:57-62). -/
def PublicKey.default : PublicKey := ⟨.nil, ⟨[]⟩⟩

/-- The three fulfillment classes (types/FulfillmentTypes.py:231-242, 324-334, 466-477). A `None` key is `PublicKey()` (getters
252-256, 483-487); a `None` signature is distinguished from an empty one by `is_fulfilled` (321, 572), a `None` secret from an
empty one by `json` and the signature hash (540, 560). -/
inductive Fulfillment
  | single (key : PublicKey) (sig : Option Signature)
  | multi (pairs : List KeySig)
  | swap (key : PublicKey) (sig : Option Signature) (secret : Option Bytes)
  deriving DecidableEq, Repr

/-- types/FulfillmentTypes.py:93-95 and the `type` properties 244-246, 336-338, 479-481. -/
def Fulfillment.type : Fulfillment → Nat
  | .single .. => 1
  | .swap .. => 2
  | .multi .. => 3

/-- types/FulfillmentTypes.py:20-33 `from_condition`. (`none` is Python's `None`.) A condition is unwrapped at most once, so a time
lock around another time lock or an atomic swap raises. -/
def fulfillmentFromCondition : Option Condition → Res Fulfillment
  | none => .ok (.single .default none)
  | some (.atomicSwap ..) => .ok (.swap .default none none)
  | some c => match c.unwrap with
    | .unlockHash _ => .ok (.single .default none)
    | .nil => .ok (.single .default none)
    | .multiSig .. => .ok (.multi [])
    | _ => .error .typeError

/-- A value passed as public key: `None`, a `PublicKey`, or anything else. -/
inductive KeyArg
  | none
  | key (k : PublicKey)
  | other
  deriving DecidableEq, Repr

/-- types/FulfillmentTypes.py:271-276, 437-442, 502-507: the `signature` setters; `None` clears. -/
def setSignature : BVal → Res (Option Signature)
  | .none => .ok none
  | v => do return some (← Signature.new v false)

/-- types/FulfillmentTypes.py:257-264, 423-430, 488-495: the `public_key` setters. -/
def setKey : KeyArg → Res PublicKey
  | .none => .ok .default
  | .key k => .ok k
  | .other => .error .typeError

/-- types/FulfillmentTypes.py:514-519: the `secret` setter. -/
def setSecret : BVal → Res (Option Bytes)
  | .none => .ok none
  | v => do return some (← BinData.new v (some 32) .hex).value

/-- types/FulfillmentTypes.py:351-356 `add_pair`. `str(None)` is `"None"`, which is the text of no key; the text of another value
is not modelled: whether or not it collides, the call raises (`ValueError` 355 or `TypeError` 429) without adding. -/
def addPair (pairs : List KeySig) (k : KeyArg) (sig : BVal) : Res (List KeySig) :=
  match k with
  | .other => .error .typeError
  | _ => do
    let spk : Str := match k with
      | .key k => k.str
      | _ => "None".toList
    if pairs.any (fun p => p.key.str == spk) then throw .valueError
    let key ← setKey k
    let s ← setSignature sig
    return pairs ++ [⟨key, s.getD .default⟩]

/-- types/FulfillmentTypes.py:278-283, 351-359, 521-526 `signature_add`: the fulfillment afterwards and the exception, if any. The
single-signature and atomic swap versions assign the key before the signature. -/
def Fulfillment.signatureAdd (f : Fulfillment) (k : KeyArg) (sig : BVal) : Fulfillment × Option Err :=
  match f with
  | .single key s => match setKey k with
    | .error e => (.single key s, some e)
    | .ok key' => match setSignature sig with
      | .error e => (.single key' s, some e)
      | .ok s' => (.single key' s', none)
  | .swap key s sec => match setKey k with
    | .error e => (.swap key s sec, some e)
    | .ok key' => match setSignature sig with
      | .error e => (.swap key' s sec, some e)
      | .ok s' => (.swap key' s' sec, none)
  | .multi pairs => match addPair pairs k sig with
    | .error e => (.multi pairs, some e)
    | .ok pairs' => (.multi pairs', none)

/-- types/FulfillmentTypes.py:330-334, 343-349: adding a list of pairs one by one; stops at the first that is refused. -/
def addPairs (pairs : List KeySig) : List (KeyArg × BVal) → List KeySig × Option Err
  | [] => (pairs, none)
  | (k, s) :: rest => match addPair pairs k s with
    | .error e => (pairs, some e)
    | .ok pairs' => addPairs pairs' rest

/-! ## Signature requests -/

/-- types/FulfillmentTypes.py:104-120 `SignatureRequest`. The callback is the fulfillment (or transaction) that created it and is
passed separately. -/
structure Request where
  owner : UnlockHash
  signed : Bool := false
  deriving DecidableEq, Repr

/-- types/FulfillmentTypes.py:148-166 `signature_fulfill`, for a callback with state `σ`: the request and the callback's state
afterwards, and the exception, if any. -/
def Request.fulfillCb {σ : Type} (H : Bytes → Bytes) (cb : σ → KeyArg → BVal → σ × Option Err) (r : Request) (f : σ)
    (k : KeyArg) (sig : BVal) : (Request × σ) × Option Err :=
  if r.signed then ((r, f), some .doubleSignatureError)
  else match k with
  | .key pk => match pk.unlockhash H with
    | .error e => ((r, f), some e)
    | .ok u =>
      if r.owner.type ≠ 0 ∧ r.owner.str H ≠ u.str H then ((r, f), some .valueError)
      else match cb f k sig with
        | (f', some e) => ((r, f'), some e)
        | (f', none) => (({ r with signed := true }, f'), none)
  | _ => ((r, f), some .typeError)

/-- types/FulfillmentTypes.py:148-166 for a request whose callback is a fulfillment. -/
def Request.fulfill (H : Bytes → Bytes) (r : Request) (f : Fulfillment) (k : KeyArg) (sig : BVal) :
    (Request × Fulfillment) × Option Err := r.fulfillCb H Fulfillment.signatureAdd f k sig

/-- types/FulfillmentTypes.py:301-315, 377-393, 550-567 `signature_requests_new`. -/
def Fulfillment.requests (H : Bytes → Bytes) (f : Fulfillment) (parent : Condition) : Res (List Request) :=
  match f with
  | .single key _ => match parent.unwrap with
    | .nil => do
      let u ← Condition.nil.unlockhash H
      let me ← key.unlockhash H
      return if u.str H = me.str H then [] else [{ owner := u }]
    | .unlockHash u => do
      let me ← key.unlockhash H
      return if u.str H = me.str H then [] else [{ owner := u }]
    | _ => .error .typeError
  | .multi pairs => match parent.unwrap with
    | .multiSig owners _ => do
      let signed ← pairs.mapM fun p => do return (← p.key.unlockhash H).str H
      return (owners.filter fun u => !signed.contains (u.str H)).map fun u => { owner := u }
    | _ => .error .typeError
  | .swap key _ _ => match parent with
    | .atomicSwap s r _ _ => do
      let me ← key.unlockhash H
      return ([s, r].filter fun u => u.str H != me.str H).map fun u => { owner := u }
    | _ => .error .typeError

/-- types/AtomicSwap secrets as a value given to an encoder: types/ConditionTypes.py:466-475 (fixed size 32, an array). -/
def secretVal (b : Bytes) : Val := .obj (.ok b) (.ok b)

/-- types/FulfillmentTypes.py:312-313, 387-388, 559-562: the extra objects handed to the transaction's signature hash. -/
def Fulfillment.hashExtras (f : Fulfillment) (pk : PublicKey) : List Val :=
  match f with
  | .single .. => []
  | .multi _ => [pk.val]
  | .swap _ _ none => [pk.val]
  | .swap _ _ (some b) => [pk.val, secretVal b]

/-- types/FulfillmentTypes.py:317-321, 395-399, 569-572 `is_fulfilled`. -/
def Fulfillment.isFulfilled (f : Fulfillment) (parent : Condition) : Res Bool :=
  match f with
  | .single _ sig => match parent.unwrap with
    | .nil => .ok sig.isSome
    | .unlockHash _ => .ok sig.isSome
    | _ => .error .typeError
  | .multi pairs => match parent.unwrap with
    | .multiSig _ n => .ok (n ≤ (pairs.length : Int))
    | _ => .error .typeError
  | .swap _ sig _ => match parent with
    | .atomicSwap .. => .ok sig.isSome
    | _ => .error .typeError

/-! ## JSON -/

/-- types/FulfillmentTypes.py:444-448 `PublicKeySignaturePair.json`. -/
def KeySig.json (p : KeySig) : Json := .obj [("publickey", .str p.key.str), ("signature", .str p.sig.str)]

/-- types/FulfillmentTypes.py:412-416 `PublicKeySignaturePair.from_json` (the constructor copies key and signature). -/
def KeySig.fromJson (j : Json) : Res KeySig := do
  let k ← PublicKey.fromJson (← j.idx "publickey")
  let s ← Signature.fromJson (← j.idx "signature") false
  return ⟨k, s⟩

/-- types/FulfillmentTypes.py:289-293, 366-369, 535-542 `json_data_object`. -/
def Fulfillment.jsonData : Fulfillment → Json
  | .single k s => .obj [("publickey", .str k.str), ("signature", .str (s.getD .default).str)]
  | .multi ps => .obj [("pairs", .arr (ps.map KeySig.json))]
  | .swap k s sec => .obj ([("publickey", .str k.str), ("signature", .str (s.getD .default).str)] ++
      (match sec with
       | none => []
       | some b => [("secret", .str (toHex b))]))

/-- types/FulfillmentTypes.py:191-195 `json`. -/
def Fulfillment.json (f : Fulfillment) : Json := .obj [("type", .int f.type), ("data", f.jsonData)]

/-- types/ConditionTypes.py:478-482 `AtomicSwapSecret.from_json`. -/
def secretOfJson : Json → Res Bytes
  | .str s => do return (← BinData.new (.str s) (some 32) .hex).value
  | _ => .error .typeError

/-- types/FulfillmentTypes.py:285-287. -/
def singleOfJson (d : Json) : Res Fulfillment := do
  let k ← PublicKey.fromJson (← d.idx "publickey")
  let s ← Signature.fromJson (← d.idx "signature") false
  return .single k (some s)

/-- types/FulfillmentTypes.py:361-364. -/
def multiOfJson (d : Json) : Res Fulfillment := do
  let ps ← (← (← d.idx "pairs").iter).mapM KeySig.fromJson
  return .multi ps

/-- types/FulfillmentTypes.py:528-533. -/
def swapOfJson (d : Json) : Res Fulfillment := do
  let k ← PublicKey.fromJson (← d.idx "publickey")
  let s ← Signature.fromJson (← d.idx "signature") false
  match d with
  | .obj l => match jget l "secret" with
    | none => return .swap k (some s) none
    | some j => do
      let b ← secretOfJson j
      return .swap k (some s) (some b)
  | _ => throw .typeError

/-- types/FulfillmentTypes.py:10-18 `fulfillments.from_json`, 169-176. -/
def Fulfillment.fromJson (j : Json) : Res Fulfillment := do
  match ← condTypeOf j with
  | some 1 => singleOfJson (← condDataOf j)
  | some 3 => multiOfJson (← condDataOf j)
  | some 2 => swapOfJson (← condDataOf j)
  | _ => throw .valueError

/-! ## Binary encodings -/

/-- types/FulfillmentTypes.py:450-460. -/
def KeySig.val (p : KeySig) : Val := .obj (siaAddSeq [p.key.val, p.sig.val]) (rivAddSeq [p.key.val, p.sig.val])

/-- types/FulfillmentTypes.py:295-296, 371-372, 544-545 `sia_binary_encode_data`. The empty secret stands for an unset one (509-513). -/
def Fulfillment.siaData : Fulfillment → Out
  | .single k s => siaAddSeq [k.val, (s.getD .default).val]
  | .multi ps => siaAdd (.seq (ps.map KeySig.val))
  | .swap k s sec => siaAddSeq [k.val, (s.getD .default).val, secretVal (sec.getD [])]

/-- types/FulfillmentTypes.py:298-299, 374-375, 547-548 `rivine_binary_encode_data`. -/
def Fulfillment.rivData : Fulfillment → Out
  | .single k s => rivAddSeq [k.val, (s.getD .default).val]
  | .multi ps => rivAdd (.seq (ps.map KeySig.val))
  | .swap k s sec => rivAddSeq [k.val, (s.getD .default).val, secretVal (sec.getD [])]

/-- types/FulfillmentTypes.py:201-208 `sia_binary_encode`. -/
def Fulfillment.sia (f : Fulfillment) : Out := Out.andThen (.ok [UInt8.ofNat f.type]) (f.siaData.nested siaSliceBytes)
/-- types/FulfillmentTypes.py:214-221 `rivine_binary_encode`. -/
def Fulfillment.riv (f : Fulfillment) : Out := (rivInt8 f.type).andThen (f.rivData.nested rivSliceBytes)
/-- A fulfillment as a value given to an encoder. -/
def Fulfillment.val (f : Fulfillment) : Val := .obj f.sia f.riv

end TF
