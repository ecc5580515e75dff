import Verif.Spec.Full
import Verif.Spec.Contents
import Mathlib.Data.Nat.Digits.Defs
/-! # The network's wire format

The layout of transactions as the network reads them, byte by byte, written down without the encoders: total functions from the contents of
a transaction to bytes. There are two formats: `sia` prefixes everything of variable length with its length in 8 bytes, `riv` with a
shorter length of 1 to 4 bytes. -/
namespace TF.Spec.Wire

/-- The `n` low bytes of a number, the least significant byte first. -/
def le (n k : Nat) : Bytes := (List.range n).map fun i => UInt8.ofNat (k / 256 ^ i)
/-- A number in as few bytes as possible, the most significant byte first; nothing for 0. -/
def be (k : Nat) : Bytes := (Nat.digits 256 k).reverse.map UInt8.ofNat

inductive Format | sia | riv

/-- A length. -/
def size : Format → Nat → Bytes
  | .sia, n => le 8 n
  | .riv, n => if n < 2 ^ 7 then le 1 (2 * n) else if n < 2 ^ 14 then le 2 (4 * n + 1) else if n < 2 ^ 21 then le 3 (8 * n + 3) else le 4 (8 * n + 7)
/-- Bytes after their number. -/
def slice (F : Format) (b : Bytes) : Bytes := size F b.length ++ b
/-- Things, one after the other, after their number. -/
def list {α : Type} (F : Format) (f : α → Bytes) (l : List α) : Bytes := size F l.length ++ l.flatMap f

/-- The characters of a text of one-byte characters. -/
def ascii (s : Str) : Bytes := s.map fun c => UInt8.ofNat c.toNat
/-- A label of 16 bytes. -/
def label (s : String) : Bytes := ascii s.toList ++ List.replicate (16 - s.length) 0

def address (u : UnlockHash) : Bytes := u.type :: u.hash.value
def amount (F : Format) (c : Currency) : Bytes := slice F (be (Spec.amount c))
def stakes (F : Format) (b : Blockstake) : Bytes := slice F (be b.value)
def key : Format → PublicKey → Bytes
  | .sia, ⟨.nil, h⟩ => label "" ++ slice .sia h.value
  | .sia, ⟨.ed25519, h⟩ => label "ed25519" ++ slice .sia h.value
  | .riv, ⟨.nil, h⟩ => 0 :: h.value
  | .riv, ⟨.ed25519, h⟩ => 1 :: h.value
/-- A signature that may be missing. -/
def sigBytes (s : Option Signature) : Bytes := (s.map Signature.value).getD []

/-- The number of a kind of condition. -/
def kind : Condition → UInt8
  | .nil => 0
  | .unlockHash _ => 1
  | .atomicSwap .. => 2
  | .lockTime .. => 3
  | .multiSig .. => 4
/-- What a condition says. -/
def terms (F : Format) : Condition → Bytes
  | .nil => []
  | .unlockHash u => address u
  | .atomicSwap s r none t => address s ++ address r ++ slice F [] ++ le 8 t.toNat
  | .atomicSwap s r (some h) t => address s ++ address r ++ h ++ le 8 t.toNat
  | .lockTime l c => le 8 l.toNat ++ kind c :: terms F c
  | .multiSig owners n => le 8 n.toNat ++ list F address owners
def condition (F : Format) (c : Condition) : Bytes := kind c :: slice F (terms F c)

def fulfillment (F : Format) : Fulfillment → Bytes
  | .single k s => 1 :: slice F (key F k ++ slice F (sigBytes s))
  | .swap k s secret => 2 :: slice F (key F k ++ slice F (sigBytes s) ++ secret.getD [])
  | .multi ps => 3 :: slice F (list F (fun p => key F p.key ++ slice F p.sig.value) ps)

def coinInput (F : Format) (ci : CoinInput) : Bytes := ci.parentId.value ++ fulfillment F ci.fulfillment
def coinOutput (F : Format) (co : CoinOutput) : Bytes := amount F co.value ++ condition F co.condition
def stakeInput (F : Format) (ci : StakeInput) : Bytes := ci.parentId.value ++ fulfillment F ci.fulfillment
def stakeOutput (F : Format) (o : StakeOutput) : Bytes := stakes F o.value ++ condition F o.condition

/-- A name of a 3Bot: one-byte characters. -/
def name (n : BotName) : Bytes := slice .riv (ascii n.value)
/-- A network address: its kind in the low two bits and its length in the rest of a byte. -/
def netAddress (a : NetAddr) : Bytes :=
  UInt8.ofNat ((match a.kind with | .hostname => 0 | .ipv4 => 1 | .ipv6 => 2) + 4 * a.addr.length) :: a.addr

/-- A refund, if any, after a byte that says whether there is one. -/
def flagged : Option CoinOutput → Bytes
  | none => [0]
  | some o => 1 :: coinOutput .riv o
/-- A refund, if any, where another byte said so. -/
def plain : Option CoinOutput → Bytes
  | none => []
  | some o => coinOutput .riv o
/-- Two numbers below 16 in a byte. -/
def two (a b : Nat) : UInt8 := UInt8.ofNat (a + 16 * b)
/-- The number of months and what follows. -/
def months (m : Int) (addresses names refund : Bool) : UInt8 :=
  UInt8.ofNat (m.toNat + (if addresses then 32 else 0) + (if names then 64 else 0) + (if refund then 128 else 0))
/-- Two lists, unless both are empty. -/
def changes {α : Type} (f : α → Bytes) (add remove : List α) : Bytes :=
  if add = [] ∧ remove = [] then [] else two add.length remove.length :: add.flatMap f ++ remove.flatMap f

def fee (c : Option Currency) : Bytes := amount .riv (c.getD ⟨none⟩)
def number (i : Option Int) : Bytes := le 4 (i.getD 0).toNat
def ownKey (k : Option PublicKey) : Bytes := key .riv (k.getD ⟨.nil, ⟨[]⟩⟩)
def inputs (ci : Option (List CoinInput)) : Bytes := list .riv (coinInput .riv) (ci.getD [])
/-- The fee for the registration of an ERC20 address: 10 TFT. -/
def tenTft : Bytes := slice .riv (be (10 * 10 ^ 9))

/-- The contents of a transaction. -/
def body : Tx → Bytes
  | .v1 t => list .sia (coinInput .sia) t.coinInputs ++ list .sia (coinOutput .sia) t.coinOutputs ++ list .sia (stakeInput .sia) t.stakeInputs ++
      list .sia (stakeOutput .sia) t.stakeOutputs ++ list .sia (amount .sia) t.minerFees ++ slice .sia t.data
  | .v128 t => t.nonce ++ fulfillment .sia (t.mintFulfillment.getD (.single ⟨.nil, ⟨[]⟩⟩ none)) ++ condition .sia t.mintCondition ++
      list .sia (amount .sia) t.minerFees ++ slice .sia t.data
  | .v129 t => t.nonce ++ fulfillment .sia (t.mintFulfillment.getD (.single ⟨.nil, ⟨[]⟩⟩ none)) ++ list .sia (coinOutput .sia) t.coinOutputs ++
      list .sia (amount .sia) t.minerFees ++ slice .sia t.data
  | .v144 t => months t.months (!t.addresses.isEmpty) (!t.names.isEmpty) t.refund.isSome :: two t.addresses.length t.names.length ::
      t.addresses.flatMap netAddress ++ t.names.flatMap name ++ fee t.fee ++ inputs (some t.coinInputs) ++ plain t.refund ++ ownKey t.key ++
      sigBytes t.sig
  | .v145 t => number t.botid ++ months t.months (!(t.addrsAdd ++ t.addrsRemove).isEmpty) (!(t.namesAdd ++ t.namesRemove).isEmpty) t.refund.isSome ::
      changes netAddress t.addrsAdd t.addrsRemove ++ changes name t.namesAdd t.namesRemove ++ fee t.fee ++ inputs (some t.coinInputs) ++
      plain t.refund ++ sigBytes t.sig
  | .v146 t => number t.sender ++ sigBytes t.senderSig ++ number t.receiver ++ sigBytes t.receiverSig ++
      two t.names.length (if t.refund.isSome then 1 else 0) :: t.names.flatMap name ++ fee t.fee ++ inputs t.coinInputs ++ plain t.refund
  | .v208 t => t.address ++ amount .riv t.value ++ fee t.fee ++ inputs (some t.coinInputs) ++ flagged t.refund
  | .v209 t => address t.address ++ amount .riv t.value ++ fee t.fee ++ t.blockId ++ t.txId
  | .v210 t => ownKey t.key ++ sigBytes t.sig ++ tenTft ++ fee t.fee ++ inputs t.coinInputs ++ flagged t.refund

/-- The version a transaction begins with. -/
def version : Tx → UInt8
  | .v1 _ => 1
  | .v128 _ => 128
  | .v129 _ => 129
  | .v144 _ => 144
  | .v145 _ => 145
  | .v146 _ => 146
  | .v208 _ => 208
  | .v209 _ => 209
  | .v210 _ => 210
/-- The label of a version. -/
def specifier : Tx → Bytes
  | .v1 _ => []
  | .v128 _ => label "minter defin tx"
  | .v129 _ => label "coin mint tx"
  | .v144 _ => label "bot register tx"
  | .v145 _ => label "bot recupdate tx"
  | .v146 _ => label "bot nametrans tx"
  | .v208 _ => label "erc20 convert tx"
  | .v209 _ => label "erc20 coingen tx"
  | .v210 _ => label "erc20 addrreg tx"

/-- A transaction that is not a legacy one. -/
def encoding (t : Tx) : Bytes :=
  match t with
  | .v1 _ => version t :: slice .sia (body t)
  | _ => version t :: body t
/-- What a transaction is identified by. -/
def identity (t : Tx) : Bytes :=
  match t with
  | .v1 _ => encoding t
  | _ => specifier t ++ body t
/-- What its coin output with this index is identified by. -/
def coinOutputId (t : Tx) (i : Nat) : Bytes := label "coin output" ++ identity t ++ le 8 i

/-! ## What is signed -/

/-- Output ids after their number, which takes 8 bytes in either format. -/
def ids (l : List Hash) : Bytes := le 8 l.length ++ l.flatMap Hash.value
def spends (l : List CoinInput) : Bytes := ids (l.map CoinInput.parentId)

/-- The bytes that are signed; `x` is particular to the input. -/
def signing (x : Bytes) : Tx → Bytes
  | .v1 t => 1 :: x ++ spends t.coinInputs ++ list .sia (coinOutput .sia) t.coinOutputs ++ ids (t.stakeInputs.map StakeInput.parentId) ++
      list .sia (stakeOutput .sia) t.stakeOutputs ++ list .sia (amount .sia) t.minerFees ++ slice .sia t.data
  | .v128 t => 128 :: label "minter defin tx" ++ t.nonce ++ x ++ condition .sia t.mintCondition ++ list .sia (amount .sia) t.minerFees ++
      slice .sia t.data
  | .v129 t => 129 :: label "coin mint tx" ++ t.nonce ++ x ++ list .sia (coinOutput .sia) t.coinOutputs ++ list .sia (amount .sia) t.minerFees ++
      slice .sia t.data
  | .v144 t => 144 :: label "bot register tx" ++ x ++ list .riv netAddress t.addresses ++ list .riv name t.names ++ le 1 t.months.toNat ++
      spends t.coinInputs ++ fee t.fee ++ flagged t.refund ++ ownKey t.key
  | .v145 t => 145 :: label "bot recupdate tx" ++ number t.botid ++ x ++ list .riv netAddress t.addrsAdd ++ list .riv netAddress t.addrsRemove ++
      list .riv name t.namesAdd ++ list .riv name t.namesRemove ++ le 1 t.months.toNat ++ spends t.coinInputs ++ fee t.fee ++ flagged t.refund
  | .v146 t => 146 :: label "bot nametrans tx" ++ number t.sender ++ number t.receiver ++ x ++ list .riv name t.names ++
      spends (t.coinInputs.getD []) ++ fee t.fee ++ flagged t.refund
  | .v208 t => 208 :: label "erc20 convert tx" ++ t.address ++ amount .riv t.value ++ x ++ spends t.coinInputs ++ fee t.fee ++ flagged t.refund
  | .v209 t => 209 :: label "erc20 coingen tx" ++ x ++ address t.address ++ amount .sia t.value ++ amount .sia (t.fee.getD ⟨none⟩) ++ t.blockId ++ t.txId
  | .v210 t => 210 :: label "erc20 addrreg tx" ++ ownKey t.key ++ x ++ spends (t.coinInputs.getD []) ++ tenTft ++ fee t.fee ++ flagged t.refund

/-- The format of the particular bytes. -/
def signingFormat : Tx → Format
  | .v1 _ | .v128 _ | .v129 _ | .v209 _ => .sia
  | _ => .riv
/-- What the signer of an input adds: nothing to spend from an address, the key for shared wallets and contracts, also the secret of a
contract if there is one. -/
def particular (F : Format) (pk : PublicKey) : Fulfillment → Bytes
  | .single .. => []
  | .multi _ => key F pk
  | .swap _ _ none => key F pk
  | .swap _ _ (some secret) => key F pk ++ secret

/-- The bytes that the owner of `pk` signs: for an input they begin with its index, for a signature of the transaction as a whole with the
name of its role. -/
def signed (t : Tx) (pk : PublicKey) : SigTarget → Bytes
  | .coin i => signing (le 8 i ++ (((t.coinInputs.getD [])[i]?.map fun ci => particular (signingFormat t) pk ci.fulfillment).getD [])) t
  | .stake i => signing (le 8 i ++ ((t.stakeInputs[i]?.map fun ci => particular (signingFormat t) pk ci.fulfillment).getD [])) t
  | .mint => signing (match t with
      | .v128 m => (m.mintFulfillment.map (particular .sia pk)).getD []
      | .v129 m => (m.mintFulfillment.map (particular .sia pk)).getD []
      | _ => []) t
  | .self role => signing role t

/-! ## Legacy transactions

An input names the key and the signature, an output pays an amount to the address of a condition (`a` gives it). -/

/-- The key and the signature of an input. -/
def signer : Fulfillment → PublicKey × Bytes
  | .single k s => (k, sigBytes s)
  | .swap k s _ => (k, sigBytes s)
  | .multi _ => (⟨.nil, ⟨[]⟩⟩, [])
def legacyInput (p : Hash) (f : Fulfillment) : Bytes := p.value ++ 1 :: slice .sia (key .sia (signer f).1) ++ slice .sia (signer f).2
def legacyEncoding (a : Condition → UnlockHash) (t : TxV1) : Bytes :=
  0 :: list .sia (fun ci => legacyInput ci.parentId ci.fulfillment) t.coinInputs ++
    list .sia (fun o => amount .sia o.value ++ address (a o.condition)) t.coinOutputs ++
    list .sia (fun ci => legacyInput ci.parentId ci.fulfillment) t.stakeInputs ++
    list .sia (fun o => stakes .sia o.value ++ address (a o.condition)) t.stakeOutputs ++ list .sia (amount .sia) t.minerFees ++ slice .sia t.data
/-- What is signed; `k` gives the address of a key. -/
def legacySigning (a : Condition → UnlockHash) (k : PublicKey → UnlockHash) (t : TxV1) (x : Bytes) : Bytes :=
  x ++ t.coinInputs.flatMap (fun ci => ci.parentId.value ++ address (k (signer ci.fulfillment).1)) ++
    list .sia (fun o => amount .sia o.value ++ address (a o.condition)) t.coinOutputs ++
    t.stakeInputs.flatMap (fun ci => ci.parentId.value ++ address (k (signer ci.fulfillment).1)) ++
    list .sia (fun o => stakes .sia o.value ++ address (a o.condition)) t.stakeOutputs ++ list .sia (amount .sia) t.minerFees ++ slice .sia t.data

/-! ## Well-formed contents: what the setters let in -/

/-- Signatures of inputs are not marked to be written without their length. -/
def Framed : Fulfillment → Prop
  | .single _ s => ∀ x ∈ s, x.asArray = false
  | .swap _ s _ => ∀ x ∈ s, x.asArray = false
  | .multi ps => ∀ p ∈ ps, p.sig.asArray = false

/-- The amounts, the names, the fulfillments, the signatures of the whole and the numbers that share a byte. -/
def amounts : Tx → List Currency
  | .v1 t => t.coinOutputs.map CoinOutput.value ++ t.minerFees
  | .v128 t => t.minerFees
  | .v129 t => t.coinOutputs.map CoinOutput.value ++ t.minerFees
  | .v144 t => t.fee.toList ++ t.refund.toList.map CoinOutput.value
  | .v145 t => t.fee.toList ++ t.refund.toList.map CoinOutput.value
  | .v146 t => t.fee.toList ++ t.refund.toList.map CoinOutput.value
  | .v208 t => t.value :: t.fee.toList ++ t.refund.toList.map CoinOutput.value
  | .v209 t => t.value :: t.fee.toList
  | .v210 t => t.fee.toList ++ t.refund.toList.map CoinOutput.value
@[inherit_doc amounts] def names : Tx → List BotName
  | .v144 t => t.names
  | .v145 t => t.namesAdd ++ t.namesRemove
  | .v146 t => t.names
  | _ => []
@[inherit_doc amounts] def fulfillments (t : Tx) : List Fulfillment :=
  (t.coinInputs.getD []).map CoinInput.fulfillment ++ t.stakeInputs.map StakeInput.fulfillment ++
    match t with
    | .v128 t => t.mintFulfillment.toList
    | .v129 t => t.mintFulfillment.toList
    | _ => []
@[inherit_doc amounts] def wholes : Tx → List Signature
  | .v144 t => t.sig.toList
  | .v145 t => t.sig.toList
  | .v146 t => t.senderSig.toList ++ t.receiverSig.toList
  | .v210 t => t.sig.toList
  | _ => []
@[inherit_doc amounts] def counts : Tx → List Nat
  | .v144 t => [t.addresses.length]
  | .v145 t => [t.addrsAdd.length, t.namesAdd.length]
  | .v146 t => [t.names.length]
  | _ => []

/-- The contents are what the setters let in, and no list of a 3Bot transaction is too long for half a byte. -/
structure Formed (t : Tx) : Prop where
  amounts : ∀ c ∈ amounts t, GoodCurrency c
  names : ∀ n ∈ names t, MadeName n
  fulfillments : ∀ f ∈ fulfillments t, Framed f
  wholes : ∀ s ∈ wholes t, s.asArray = true
  counts : ∀ n ∈ counts t, n ≤ 15

end TF.Spec.Wire
