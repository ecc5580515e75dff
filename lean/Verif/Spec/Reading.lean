import Verif.Spec.CurrencyText
import Verif.Spec.HostName
import Verif.Spec.Base64
import Verif.Spec.Encoding
import Verif.Model.TxJson
import Mathlib.Data.List.Forall2
/-! # What a JSON value says

The specification of reading JSON: which values stand for which address, key, condition, fulfillment, input, output and transaction. Amounts of
money are texts with a grammar of their own (C125); here they are what those texts are read as. -/
namespace TF.Spec

/-! ## Texts -/

/-- The value of a hexadecimal digit. -/
def HexValue (c : Char) (n : Nat) : Prop :=
  ('0' ≤ c ∧ c ≤ '9' ∧ n = c.toNat - '0'.toNat) ∨ ('a' ≤ c ∧ c ≤ 'f' ∧ n = 10 + (c.toNat - 'a'.toNat)) ∨ ('A' ≤ c ∧ c ≤ 'F' ∧ n = 10 + (c.toNat - 'A'.toNat))

/-- Bytes written with two hexadecimal digits each, with blanks before, between and after them. -/
inductive HexText : Str → Bytes → Prop
  | none : HexText [] []
  | blank (c : Char) (s : Str) (b : Bytes) : c ∈ [' ', '\t', '\n', '\r', '\x0b', '\x0c'] → HexText s b → HexText (c :: s) b
  | byte (c d : Char) (hi lo : Nat) (s : Str) (b : Bytes) : HexValue c hi → HexValue d lo → HexText s b →
      HexText (c :: d :: s) (UInt8.ofNat (16 * hi + lo) :: b)

/-- Nothing (as far as blanks go) or `n` bytes. -/
def SizedText (n : Nat) (s : Str) (b : Bytes) : Prop := HexText s b ∧ (b = [] ∨ b.length = n)

/-- The text of an address: the type in two characters, the hash in 64 and the checksum in twelve. The nil address has a zero hash and any checksum. -/
def AddressText (H : Bytes → Bytes) (s : Str) (u : UnlockHash) : Prop :=
  ∃ type hash sum : Str, s = type ++ hash ++ sum ∧ type.length = 2 ∧ hash.length = 64 ∧ sum.length = 12 ∧
    IntNumeral type (u.type.toNat : Int) ∧ SizedText 32 hash u.hash.value ∧
    (u.type = 0 ∧ u.hash.value = List.replicate 32 0 ∨ u.type ≠ 0 ∧ sum = toHex ((H (u.type :: u.hash.value)).take 6))

/-- The text of a public key: the empty one, or the name of the algorithm (which may be missing) and the key itself with a colon between them. -/
def KeyText (s : Str) (k : PublicKey) : Prop :=
  s = [] ∧ k = ⟨.nil, ⟨[]⟩⟩ ∨
  ∃ name key : Str, s = name ++ ':' :: key ∧ ':' ∉ name ∧ ':' ∉ key ∧ SizedText 32 key k.hash.value ∧
    (name = [] ∧ k.spec = .nil ∨ name = "ed25519".toList ∧ k.spec = .ed25519)

/-- An ERC20 address or hash of `n` bytes, with or without `0x` before it. -/
def PrefixedText (n : Nat) (s : Str) (b : Bytes) : Prop :=
  ∃ pre hex : Str, s = pre ++ hex ∧ (pre = ['0', 'x'] ∨ pre = ['0', 'X'] ∨ pre = [] ∧ hex.take 2 ≠ ['0', 'x'] ∧ hex.take 2 ≠ ['0', 'X']) ∧ SizedText n hex b

/-! ## JSON values -/

/-- The object's value for a key, and an object without the key. -/
def FieldIs (j : Json) (k : String) (v : Json) : Prop := ∃ l, j = .obj l ∧ jget l k = some v
@[inherit_doc FieldIs]
def Lacks (j : Json) (k : String) : Prop := ∃ l, j = .obj l ∧ jget l k = none
/-- The value for a key or, without it, a default. -/
def FieldOr (j : Json) (k : String) (dflt v : Json) : Prop := FieldIs j k v ∨ Lacks j k ∧ v = dflt

/-- Values that count as nothing: `null`, `false`, zero and everything empty. -/
def Nothing : Json → Prop
  | .null => True
  | .bool b => b = false
  | .int i => i = 0
  | .str s => s = []
  | .arr l => l = []
  | .obj l => l = []
  | .ver _ => False

/-- The whole number a value is equal to. -/
def EqualTo (v : Json) (i : Int) : Prop := v = .int i ∨ (∃ n : Nat, v = .ver n ∧ i = n) ∨ (v = .bool true ∧ i = 1) ∨ (v = .bool false ∧ i = 0)
/-- The whole number a value can be converted to: one it is equal to or the text of one. -/
def NumberOf (v : Json) (i : Int) : Prop := EqualTo v i ∨ ∃ s, v = .str s ∧ IntNumeral s i

/-- What iterating over a value gives: the elements of a list, the characters of a text, the keys of an object. -/
def Members (v : Json) (xs : List Json) : Prop :=
  v = .arr xs ∨ (∃ s : Str, v = .str s ∧ xs = s.map fun c => .str [c]) ∨ (∃ l, v = .obj l ∧ xs = l.map fun p => .str p.1.toList)

/-- The list under a key, element by element; a missing one and one that counts as nothing are empty. -/
def ListIs {α : Type} (d : Json) (k : String) (reads : Json → α → Prop) (l : List α) : Prop :=
  Lacks d k ∧ l = [] ∨ ∃ v, FieldIs d k v ∧ (Nothing v ∧ l = [] ∨ ¬ Nothing v ∧ ∃ xs, Members v xs ∧ List.Forall₂ reads xs l)

/-- The value under a key, or the default if it is missing or counts as nothing. -/
def Filled (d : Json) (k : String) (dflt v : Json) : Prop :=
  Lacks d k ∧ v = dflt ∨ ∃ w, FieldIs d k w ∧ (Nothing w ∧ v = dflt ∨ ¬ Nothing w ∧ v = w)

/-- The number under a key, zero if it is missing or counts as nothing. -/
def Number (d : Json) (k : String) (i : Int) : Prop := ∃ v, Filled d k (.int 0) v ∧ NumberOf v i

/-- The key does not occur in the value: an object without it, a list without its text, a text it is no part of. -/
def Absent (d : Json) (k : String) : Prop :=
  Lacks d k ∨ (∃ l, d = .arr l ∧ Json.str k.toList ∉ l) ∨ ∃ s, d = .str s ∧ ¬ k.toList <:+: s

/-- The value under a key, if there is one. -/
def Maybe {α : Type} (d : Json) (k : String) (reads : Json → α → Prop) (o : Option α) : Prop :=
  Absent d k ∧ o = none ∨ ∃ v x, FieldIs d k v ∧ reads v x ∧ o = some x

/-- A text that says `x`. -/
def InText {α : Type} (reads : Str → α → Prop) (j : Json) (x : α) : Prop := ∃ s, j = .str s ∧ reads s x

/-- `null` or a text that says `x`; `null` says `x` if the empty text does. -/
def InTextOrNull {α : Type} (reads : Str → α → Prop) (j : Json) (x : α) : Prop := j = .null ∧ reads [] x ∨ InText reads j x

/-! ## Conditions and fulfillments -/

/-- The number of the kind of condition or fulfillment (`0` if there is none), and the object that describes it. -/
def KindIs (j : Json) (n : Int) : Prop := ∃ v, FieldOr j "type" (.int 0) v ∧ EqualTo v n
@[inherit_doc KindIs]
def Described (j d : Json) : Prop := FieldOr j "data" (.obj []) d

/-- The conditions that can be put under a time lock. -/
inductive BareCondition (H : Bytes → Bytes) (j d : Json) : Condition → Prop
  | nil : KindIs j 0 → Described j d → (d = .null ∨ d = .obj []) → BareCondition H j d .nil
  | wallet (v : Json) (u : UnlockHash) : KindIs j 1 → Described j d → FieldIs d "unlockhash" v → InText (AddressText H) v u → BareCondition H j d (.unlockHash u)
  | multi (m v : Json) (n : Int) (xs : List Json) (us : List UnlockHash) : KindIs j 4 → Described j d → FieldIs d "minimumsignaturecount" m → NumberOf m n →
      FieldIs d "unlockhashes" v → Members v xs → List.Forall₂ (InText (AddressText H)) xs us → BareCondition H j d (.multiSig us n)

/-- All conditions. The parties of a swap are wallets (or nil); its lock is a time, which is a number from 500 million on. -/
inductive SaysCondition (H : Bytes → Bytes) (j : Json) : Condition → Prop
  | bare (d : Json) (c : Condition) : BareCondition H j d c → SaysCondition H j c
  | swap (d s r h t : Json) (su ru : UnlockHash) (hs : Bytes) (i : Int) : KindIs j 2 → Described j d →
      FieldIs d "sender" s → InText (AddressText H) s su → (su.type = 0 ∨ su.type = 1) →
      FieldIs d "receiver" r → InText (AddressText H) r ru → (ru.type = 0 ∨ ru.type = 1) →
      FieldIs d "hashedsecret" h → InTextOrNull (SizedText 32) h hs →
      FieldIs d "timelock" t → NumberOf t i → 500000000 ≤ i → SaysCondition H j (.atomicSwap su ru (some hs) i)
  | lock (d l x xd : Json) (i : Int) (c : Condition) : KindIs j 3 → Described j d → FieldIs d "locktime" l → NumberOf l i → 0 ≤ i →
      FieldIs d "condition" x → BareCondition H x xd c → SaysCondition H j (.lockTime i c)

/-- An owner of a shared wallet: nobody in particular, an address, or the text of an address. -/
inductive OwnerIs (H : Bytes → Bytes) : OwnerArg → UnlockHash → Prop
  | none : OwnerIs H .none .default
  | address (u : UnlockHash) : OwnerIs H (.uh u) u
  | text (s : Str) (u : UnlockHash) : AddressText H s u → OwnerIs H (.str s) u

/-- A public key, which may be missing. -/
def SaysKey (j : Json) (k : PublicKey) : Prop := Nothing j ∧ k = ⟨.nil, ⟨[]⟩⟩ ∨ ¬ Nothing j ∧ InText KeyText j k
/-- A signature, which may be missing. -/
def SaysSignature (asArray : Bool) (j : Json) (s : Signature) : Prop := InTextOrNull (SizedText 64) j s.value ∧ s.asArray = asArray
/-- A key and its signature. -/
def SaysSigned (d : Json) (k : PublicKey) (s : Signature) : Prop :=
  ∃ kj sj, FieldIs d "publickey" kj ∧ SaysKey kj k ∧ FieldIs d "signature" sj ∧ SaysSignature false sj s

/-- All fulfillments. -/
inductive SaysFulfillment (j : Json) : Fulfillment → Prop
  | single (d : Json) (k : PublicKey) (s : Signature) : KindIs j 1 → Described j d → SaysSigned d k s → SaysFulfillment j (.single k (some s))
  | multi (d v : Json) (xs : List Json) (ps : List KeySig) : KindIs j 3 → Described j d → FieldIs d "pairs" v → Members v xs →
      List.Forall₂ (fun x p => SaysSigned x p.key p.sig) xs ps → SaysFulfillment j (.multi ps)
  | swap (d : Json) (k : PublicKey) (s : Signature) (o : Option Bytes) : KindIs j 2 → Described j d → SaysSigned d k s →
      Maybe d "secret" (InText (SizedText 32)) o → SaysFulfillment j (.swap k (some s) o)

/-! ## Inputs and outputs -/

/-- An amount of money (C125). -/
def SaysMoney (j : Json) (c : Currency) : Prop := ∃ s, j = .str s ∧ Currency.fromJson s = .ok c
/-- A number of block stakes; `null` and the empty text are none. -/
def SaysStakes (j : Json) (b : Blockstake) : Prop := (j = .null ∨ j = .str []) ∧ b.value = 0 ∨ ∃ s, s ≠ [] ∧ j = .str s ∧ IntNumeral s (b.value : Int)
/-- Data in base64; `null` is none. -/
def SaysData (j : Json) (b : Bytes) : Prop := j = .null ∧ b = [] ∨ ∃ s, j = .str s ∧ IsAscii s ∧ Base64Text s b

/-- A coin input, of which the output it spends is not known. -/
def SaysInput (j : Json) (ci : CoinInput) : Prop :=
  ∃ p f, FieldIs j "parentid" p ∧ InTextOrNull (SizedText 32) p ci.parentId.value ∧ FieldIs j "fulfillment" f ∧ SaysFulfillment f ci.fulfillment ∧ ci.parent = none
/-- A coin output, whose identifier is not known. -/
def SaysOutput (H : Bytes → Bytes) (j : Json) (co : CoinOutput) : Prop :=
  ∃ v c, FieldIs j "value" v ∧ SaysMoney v co.value ∧ FieldIs j "condition" c ∧ SaysCondition H c co.condition ∧ co.id = ⟨[]⟩
@[inherit_doc SaysInput]
def SaysStakeInput (j : Json) (bi : StakeInput) : Prop :=
  ∃ p f, FieldIs j "parentid" p ∧ InTextOrNull (SizedText 32) p bi.parentId.value ∧ FieldIs j "fulfillment" f ∧ SaysFulfillment f bi.fulfillment ∧ bi.parent = .default
@[inherit_doc SaysOutput]
def SaysStakeOutput (H : Bytes → Bytes) (j : Json) (o : StakeOutput) : Prop :=
  ∃ v c, FieldIs j "value" v ∧ SaysStakes v o.value ∧ FieldIs j "condition" c ∧ SaysCondition H c o.condition ∧ o.id = ⟨[]⟩

/-! ## Transactions -/

/-- A text or one with a newline after it, which the patterns of names do not tell apart (C67, C128). -/
def OrLine (good : Str → Prop) (s : Str) : Prop := good s ∨ ∃ t, s = t ++ ['\n'] ∧ good t

/-- A network address: an IP address or a host name, which may be missing. -/
def SaysNet (L : IpLib) (j : Json) (a : NetAddr) : Prop :=
  (j = .null ∨ j = .str []) ∧ a = ⟨.hostname, []⟩ ∨
  ∃ s, s ≠ [] ∧ j = .str s ∧ (OrLine GoodHost s ∧ s.length ≤ 63 ∧ a = ⟨.hostname, asciiBytes s⟩ ∨ ¬ OrLine GoodHost s ∧ ∃ b, L.parse s = some b ∧ IpIs b a)
/-- The name of a bot, which may be missing. -/
def SaysName (j : Json) (n : BotName) : Prop := (j = .null ∨ j = .str []) ∧ n = ⟨[]⟩ ∨ ∃ s, s ≠ [] ∧ j = .str s ∧ OrLine GoodName s ∧ s.length ≤ 63 ∧ n = ⟨s⟩

/-- What a payment says. -/
structure SaysV1 (H : Bytes → Bytes) (d : Json) (t : TxV1) : Prop where
  inputs : ListIs d "coininputs" SaysInput t.coinInputs
  outputs : ListIs d "coinoutputs" (SaysOutput H) t.coinOutputs
  stakeInputs : ListIs d "blockstakeinputs" SaysStakeInput t.stakeInputs
  stakeOutputs : ListIs d "blockstakeoutputs" (SaysStakeOutput H) t.stakeOutputs
  fees : ListIs d "minerfees" SaysMoney t.minerFees
  data : ∃ v, Filled d "arbitrarydata" (.str []) v ∧ SaysData v t.data
  now : t.legacy = false

/-- An input of the first version: key and signature are in parts of its unlocker. -/
def OldSigned (x : Json) (parentId : Bytes) (f : Fulfillment) : Prop :=
  ∃ p u c kj g sj k s, FieldOr x "parentid" (.str []) p ∧ InTextOrNull (SizedText 32) p parentId ∧ FieldOr x "unlocker" (.obj []) u ∧
    FieldOr u "condition" (.obj []) c ∧ FieldOr c "publickey" .null kj ∧ SaysKey kj k ∧
    FieldOr u "fulfillment" (.obj []) g ∧ FieldOr g "signature" .null sj ∧ SaysSignature false sj s ∧ f = .single k (some s)
/-- An output of the first version: to an address. -/
def OldPaid (H : Bytes → Bytes) (x : Json) (c : Condition) : Prop :=
  ∃ a u, FieldOr x "unlockhash" (.str []) a ∧ InText (AddressText H) a u ∧ c = .unlockHash u
/-- The list under a key, if there is one. -/
def OldList {α : Type} (d : Json) (k : String) (reads : Json → α → Prop) (l : List α) : Prop :=
  Absent d k ∧ l = [] ∨ ∃ v, FieldIs d k v ∧ (Nothing v ∧ l = [] ∨ ¬ Nothing v ∧ ∃ xs, Members v xs ∧ List.Forall₂ reads xs l)

/-- What a payment of the first version says. -/
structure SaysOld (H : Bytes → Bytes) (d : Json) (t : TxV1) : Prop where
  inputs : OldList d "coininputs" (fun x ci => OldSigned x ci.parentId.value ci.fulfillment ∧ ci.parent = none) t.coinInputs
  outputs : OldList d "coinoutputs" (fun x co => (∃ v, FieldOr x "value" (.str ['0']) v ∧ SaysMoney v co.value) ∧ OldPaid H x co.condition ∧ co.id = ⟨[]⟩) t.coinOutputs
  stakeInputs : OldList d "blockstakeinputs" (fun x bi => OldSigned x bi.parentId.value bi.fulfillment ∧ bi.parent = .default) t.stakeInputs
  stakeOutputs : OldList d "blockstakeoutputs" (fun x o => (∃ v, FieldOr x "value" (.str ['0']) v ∧ SaysStakes v o.value) ∧ OldPaid H x o.condition ∧ o.id = ⟨[]⟩)
    t.stakeOutputs
  fees : OldList d "minerfees" SaysMoney t.minerFees
  data : Absent d "arbitrarydata" ∧ t.data = [] ∨ ∃ v w, FieldIs d "arbitrarydata" w ∧ Filled d "arbitrarydata" (.str []) v ∧ SaysData v t.data
  old : t.legacy = true

/-- What a change of the minters says. -/
structure SaysV128 (H : Bytes → Bytes) (d : Json) (t : TxV128) : Prop where
  nonce : ∃ v, FieldOr d "nonce" (.str []) v ∧ SaysData v t.nonce
  condition : ∃ v, FieldOr d "mintcondition" (.obj []) v ∧ SaysCondition H v t.mintCondition
  fulfillment : ∃ v f, FieldOr d "mintfulfillment" (.obj []) v ∧ SaysFulfillment v f ∧ t.mintFulfillment = some f
  fees : ListIs d "minerfees" SaysMoney t.minerFees
  data : ∃ v, Filled d "arbitrarydata" (.str []) v ∧ SaysData v t.data
  parent : t.parent = none

/-- What a creation of coins says. -/
structure SaysV129 (H : Bytes → Bytes) (d : Json) (t : TxV129) : Prop where
  nonce : ∃ v, FieldOr d "nonce" (.str []) v ∧ SaysData v t.nonce
  fulfillment : ∃ v f, FieldOr d "mintfulfillment" (.obj []) v ∧ SaysFulfillment v f ∧ t.mintFulfillment = some f
  outputs : ListIs d "coinoutputs" (SaysOutput H) t.coinOutputs
  fees : ListIs d "minerfees" SaysMoney t.minerFees
  data : ∃ v, Filled d "arbitrarydata" (.str []) v ∧ SaysData v t.data
  parent : t.parent = none

/-- What a registration of a bot says. -/
structure SaysV144 (L : IpLib) (H : Bytes → Bytes) (d : Json) (t : TxV144) : Prop where
  addresses : ListIs d "addresses" (SaysNet L) t.addresses
  names : ListIs d "names" SaysName t.names
  months : Number d "nrofmonths" t.months
  fee : Maybe d "txfee" SaysMoney t.fee
  inputs : ListIs d "coininputs" SaysInput t.coinInputs
  refund : Maybe d "refundcoinoutput" (SaysOutput H) t.refund
  identification : ∃ v, FieldOr d "identification" .null v ∧
    ((v = .null ∨ v = .obj []) ∧ t.key = none ∧ t.sig = none ∨
      ∃ kj k sj s, FieldIs v "publickey" kj ∧ SaysKey kj k ∧ FieldIs v "signature" sj ∧ SaysSignature true sj s ∧ t.key = some k ∧ t.sig = some s)

/-- What a change of a bot's record says. -/
structure SaysV145 (L : IpLib) (H : Bytes → Bytes) (d : Json) (t : TxV145) : Prop where
  bot : ∃ i, Number d "id" i ∧ t.botid = some i
  addresses : ∃ v, Filled d "addresses" (.obj []) v ∧ ListIs v "add" (SaysNet L) t.addrsAdd ∧ ListIs v "remove" (SaysNet L) t.addrsRemove
  names : ∃ v, Filled d "names" (.obj []) v ∧ ListIs v "add" SaysName t.namesAdd ∧ ListIs v "remove" SaysName t.namesRemove
  months : Number d "nrofmonths" t.months
  fee : Maybe d "txfee" SaysMoney t.fee
  inputs : ListIs d "coininputs" SaysInput t.coinInputs
  refund : Maybe d "refundcoinoutput" (SaysOutput H) t.refund
  signature : ∃ v s, Filled d "signature" .null v ∧ SaysSignature false v s ∧ t.sig = some s
  parent : t.parentKey = none

/-- A party of a name transfer: who it is and its signature. -/
def SaysParty (j : Json) (x : Int × Signature) : Prop := Number j "id" x.1 ∧ ∃ v, Filled j "signature" .null v ∧ SaysSignature false v x.2

/-- What a transfer of names says. -/
structure SaysV146 (H : Bytes → Bytes) (d : Json) (t : TxV146) : Prop where
  sender : ∃ o, Maybe d "sender" SaysParty o ∧ t.sender = o.map (·.1) ∧ t.senderSig = o.map (·.2)
  receiver : ∃ o, Maybe d "receiver" SaysParty o ∧ t.receiver = o.map (·.1) ∧ t.receiverSig = o.map (·.2)
  names : ListIs d "names" SaysName t.names
  fee : Maybe d "txfee" SaysMoney t.fee
  inputs : ∃ l, ListIs d "coininputs" SaysInput l ∧ t.coinInputs = some l
  refund : Maybe d "refundcoinoutput" (SaysOutput H) t.refund
  parents : t.senderKey = none ∧ t.receiverKey = none

/-- What a conversion to ERC20 coins says. -/
structure SaysV208 (H : Bytes → Bytes) (d : Json) (t : TxV208) : Prop where
  address : ∃ o, Maybe d "address" (InTextOrNull (PrefixedText 20)) o ∧ t.address = o.getD []
  value : ∃ o, Maybe d "value" SaysMoney o ∧ t.value = o.getD ⟨none⟩
  fee : Maybe d "txfee" SaysMoney t.fee
  inputs : ListIs d "coininputs" SaysInput t.coinInputs
  refund : Maybe d "refundcoinoutput" (SaysOutput H) t.refund

/-- What a withdrawal from ERC20 coins says. -/
structure SaysV209 (H : Bytes → Bytes) (d : Json) (t : TxV209) : Prop where
  address : ∃ o, Maybe d "address" (InText (AddressText H)) o ∧ t.address = o.getD .default
  value : ∃ o, Maybe d "value" SaysMoney o ∧ t.value = o.getD ⟨none⟩
  fee : Maybe d "txfee" SaysMoney t.fee
  block : ∃ o, Maybe d "blockid" (InTextOrNull (PrefixedText 32)) o ∧ t.blockId = o.getD []
  txid : ∃ o, Maybe d "txid" (InTextOrNull (PrefixedText 32)) o ∧ t.txId = o.getD []

/-- What a registration for ERC20 withdrawals says; its registration fee, if given, is 10 TFT. -/
structure SaysV210 (H : Bytes → Bytes) (d : Json) (t : TxV210) : Prop where
  key : Maybe d "pubkey" SaysKey t.key
  signature : Maybe d "signature" (SaysSignature false) t.sig
  registration : ∃ o, Maybe d "regfee" (fun j (c : Currency) => SaysMoney j c ∧ amount c = 10 * 10 ^ 9) o
  fee : Maybe d "txfee" SaysMoney t.fee
  inputs : ∃ l, ListIs d "coininputs" SaysInput l ∧ t.coinInputs = some l
  refund : Maybe d "refundcoinoutput" (SaysOutput H) t.refund

/-- A transaction: its version and the object that describes it, which only the first version cannot do without. -/
inductive SaysTx (L : IpLib) (H : Bytes → Bytes) (j : Json) : Tx → Prop
  | v0 (v d : Json) (t : TxV1) : FieldIs j "version" v → EqualTo v 0 → FieldIs j "data" d → SaysOld H d t → SaysTx L H j (.v1 t)
  | v1 (v d : Json) (t : TxV1) : FieldIs j "version" v → EqualTo v 1 → Described j d → SaysV1 H d t → SaysTx L H j (.v1 t)
  | v128 (v d : Json) (t : TxV128) : FieldIs j "version" v → EqualTo v 128 → Described j d → SaysV128 H d t → SaysTx L H j (.v128 t)
  | v129 (v d : Json) (t : TxV129) : FieldIs j "version" v → EqualTo v 129 → Described j d → SaysV129 H d t → SaysTx L H j (.v129 t)
  | v144 (v d : Json) (t : TxV144) : FieldIs j "version" v → EqualTo v 144 → Described j d → SaysV144 L H d t → SaysTx L H j (.v144 t)
  | v145 (v d : Json) (t : TxV145) : FieldIs j "version" v → EqualTo v 145 → Described j d → SaysV145 L H d t → SaysTx L H j (.v145 t)
  | v146 (v d : Json) (t : TxV146) : FieldIs j "version" v → EqualTo v 146 → Described j d → SaysV146 H d t → SaysTx L H j (.v146 t)
  | v208 (v d : Json) (t : TxV208) : FieldIs j "version" v → EqualTo v 208 → Described j d → SaysV208 H d t → SaysTx L H j (.v208 t)
  | v209 (v d : Json) (t : TxV209) : FieldIs j "version" v → EqualTo v 209 → Described j d → SaysV209 H d t → SaysTx L H j (.v209 t)
  | v210 (v d : Json) (t : TxV210) : FieldIs j "version" v → EqualTo v 210 → Described j d → SaysV210 H d t → SaysTx L H j (.v210 t)

end TF.Spec
