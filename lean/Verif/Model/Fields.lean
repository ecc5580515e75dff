import Verif.Model.TxBuild
/-!
# The properties of the transaction classes: assigning and reading

`a` of `tx.field = a` is one of the kinds of values below. Left out: numbers that are not ints (`bool`, `float`, and for the number of
months also `Currency` and `Decimal`, which its comparisons accept). All line numbers are of types/transactions/*.py.
-/
namespace TF

/-- The properties with a setter, and `registration_fee`. `outputs` is `coin_outputs`. The lists of inputs, names and addresses have
operations of their own (`TxBuild`). -/
inductive Field
  | fee | months | botid | senderBot | receiverBot | key | parentKey | senderKey | receiverKey | signature | senderSig | receiverSig
  | ercAddress | address | value | blockId | txId | outputs | registrationFee | mintCondition | parentMint | mintFulfillment | data
  deriving DecidableEq, Repr

/-- Values that can be assigned. `other` is a value of any other type without a length, such as an object. -/
inductive Arg
  | none
  | int (i : Int)
  | str (s : Str)
  | bytes (b : Bytes)
  | bin (d : BinData)
  | cur (c : Currency)
  | dec (d : DecLit)
  | key (k : PublicKey)
  | uh (u : UnlockHash)
  | cond (c : Condition)
  | ful (f : Fulfillment)
  | output (co : CoinOutput)
  | outputs (l : List CoinOutput)
  | other

/-- Values that are read. -/
inductive Shown
  | cur (c : Currency)
  | int (i : Int)
  | key (k : PublicKey)
  | sig (s : Signature)
  | bytes (b : Bytes)
  | uh (u : UnlockHash)
  | outs (l : List CoinOutput)
  | cond (c : Condition)
  | ful (f : Fulfillment)
  deriving DecidableEq, Repr

/-- An argument seen by `Currency(value=…)` (types/PrimitiveTypes.py:208-229). -/
def Arg.cval : Arg → CVal
  | .none => .none
  | .int i => .int i
  | .str s => .str s
  | .cur c => .cur c
  | .dec d => .dec d
  | _ => .other

/-- An argument seen by `BinaryData(value=…)` (types/PrimitiveTypes.py:67-88). -/
def Arg.bval : Arg → BVal
  | .none => .none
  | .str s => .str s
  | .bytes b => .bytes b
  | .bin d => .data d
  | _ => .other

/-- The `transaction_fee` setters: ThreeBot.py:246-251, 653-658, 1029-1034, ERC20.py:123-128, 294-299, 540-545. -/
def setFee : Arg → Res (Option Currency)
  | .none => .ok none
  | a => do return some (← Currency.set a.cval)

/-- The `value` setters: ERC20.py:47-52, 268-273. -/
def setValue : Arg → Res Currency
  | .none => .ok ⟨none⟩
  | a => Currency.set a.cval

/-- `n < lo or n > 24` on the arguments that are modelled (ThreeBot.py:264-267, 670-673): a comparison with an int raises `TypeError`. -/
def setMonthsArg (lo : Int) : Arg → Res Int
  | .int n => if n < lo ∨ n > 24 then .error .valueError else .ok n
  | _ => .error .typeError

/-- The bot identifier setters: ThreeBot.py:488-497, 917-926, 933-942. -/
def setBotArg : Arg → Res (Option Int)
  | .none => .ok none
  | .int i => setBotId i
  | _ => .error .typeError

/-- The public key setters: ThreeBot.py:286-293, 693-700, 1071-1092, ERC20.py:435-444. The copy is a key with the same two parts. -/
def setKeyArg : Arg → Res (Option PublicKey)
  | .none => .ok none
  | .key k => .ok (some k)
  | _ => .error .typeError

/-- The `address` setter of ERC20.py:34-39 and the two hash setters 281-286, 313-318. -/
def setErcArg (size : Nat) : Arg → Res Bytes
  | .none => .ok []
  | a => erc20New size a.bval

/-- ERC20.py:252-260. -/
def setAddressArg (H : Bytes → Bytes) : Arg → Res UnlockHash
  | .none => .ok .default
  | .uh u => .ok u
  | .str s => UnlockHash.fromJson H (.str s)
  | _ => .error .typeError

/-- The refund setters `coin_outputs = …`: ThreeBot.py:167-184, 528-545, 973-989, ERC20.py:86-105, 491-510. -/
def setRefundArg : Arg → Res (Option CoinOutput)
  | .none => .ok none
  | .output co => .ok (some co)
  | .outputs l => setRefund l
  | _ => .error .typeError

/-- ERC20.py:526-532: nothing is stored. -/
def setRegistrationArg : Arg → Res Unit
  | .none => .ok ()
  | a => do
    let fee ← Currency.set a.cval
    if fee.eqv registrationFee then return () else throw .valueError

/-- The condition setters: Minting.py:71-79, 90-98, 309-317. -/
def setCondArg : Arg → Res (Option Condition)
  | .none => .ok none
  | .cond c => .ok (some c)
  | _ => .error .typeError

/-- The `mint_fulfillment` setters: Minting.py:112-120, 290-298. -/
def setFulArg : Arg → Res (Option Fulfillment)
  | .none => .ok none
  | .ful f => .ok (some f)
  | _ => .error .typeError

/-- The `data` setters (see `setData`). A list has a length, but is refused by `BinaryData`. -/
def setDataArg : Arg → Res Bytes
  | .none => setData .none
  | .str s => setData (.str s)
  | .bytes b => setData (.bytes b)
  | .bin d => setData (.data d)
  | .outputs l => if l.length > 83 then .error .valueError else .error .typeError
  | _ => .error .typeError

/-- The `coin_outputs` setters of Standard.py:134-140 and Minting.py:262-268: the list is emptied, then the outputs are added one by
one; the outputs afterwards and the exception, if any. What is false (`not value`) is an empty list; what is not iterable, or has
elements that are no outputs, raises after the list was emptied. -/
def setOutputsArg : Arg → List CoinOutput × Option Err
  | .none => ([], none)
  | .outputs l => (l, none)
  | .int i => if i = 0 then ([], none) else ([], some .typeError)
  | .str s => if s = [] then ([], none) else ([], some .attributeError)
  | .bytes b => if b = [] then ([], none) else ([], some .attributeError)
  | .bin d => if d.value = [] then ([], none) else ([], some .typeError)
  | .dec (.fin d) => if d.coef = 0 then ([], none) else ([], some .typeError)
  | _ => ([], some .typeError)

/-- The signature setters (see `setTxSignature`). -/
def setSigArg (a : Arg) : Res (Option Signature) := setTxSignature a.bval

/-- A setter that stores what it was given, or raises and stores nothing. -/
def store {α : Type} (t : Tx) (r : Res α) (put : α → Tx) : Option (Tx × Option Err) :=
  match r with
  | .ok v => some (put v, none)
  | .error e => some (t, some e)

/-- `tx.field = a`: the transaction afterwards and the exception, if any. `none`: the class has no such property (Python then makes an
attribute nothing ever reads) or only its getter (`AttributeError`). -/
def Tx.assign (H : Bytes → Bytes) (t : Tx) (f : Field) (a : Arg) : Option (Tx × Option Err) :=
  match t, f with
  | .v1 v, .outputs => let r := setOutputsArg a; some (.v1 { v with coinOutputs := r.1 }, r.2)
  | .v1 v, .data => store t (setDataArg a) fun x => .v1 { v with data := x }
  | .v128 v, .data => store t (setDataArg a) fun x => .v128 { v with data := x }
  | .v128 v, .mintCondition => store t (setCondArg a) fun x => .v128 { v with mintCondition := x.getD .nil }
  | .v128 v, .parentMint => store t (setCondArg a) fun x => .v128 { v with parent := x }
  | .v128 v, .mintFulfillment => store t (setFulArg a) fun x => .v128 { v with mintFulfillment := x }
  | .v129 v, .outputs => let r := setOutputsArg a; some (.v129 { v with coinOutputs := r.1 }, r.2)
  | .v129 v, .data => store t (setDataArg a) fun x => .v129 { v with data := x }
  | .v129 v, .parentMint => store t (setCondArg a) fun x => .v129 { v with parent := x }
  | .v129 v, .mintFulfillment => store t (setFulArg a) fun x => .v129 { v with mintFulfillment := x }
  | .v144 v, .fee => store t (setFee a) fun x => .v144 { v with fee := x }
  | .v144 v, .months => store t (setMonthsArg 1 a) fun x => .v144 { v with months := x }
  | .v144 v, .key => store t (setKeyArg a) fun x => .v144 { v with key := x }
  | .v144 v, .signature => store t (setSigArg a) fun x => .v144 { v with sig := x }
  | .v144 v, .outputs => store t (setRefundArg a) fun x => .v144 { v with refund := x }
  | .v145 v, .botid => store t (setBotArg a) fun x => .v145 { v with botid := x }
  | .v145 v, .fee => store t (setFee a) fun x => .v145 { v with fee := x }
  | .v145 v, .months => store t (setMonthsArg 0 a) fun x => .v145 { v with months := x }
  | .v145 v, .parentKey => store t (setKeyArg a) fun x => .v145 { v with parentKey := x }
  | .v145 v, .signature => store t (setSigArg a) fun x => .v145 { v with sig := x }
  | .v145 v, .outputs => store t (setRefundArg a) fun x => .v145 { v with refund := x }
  | .v146 v, .senderBot => store t (setBotArg a) fun x => .v146 { v with sender := x }
  | .v146 v, .receiverBot => store t (setBotArg a) fun x => .v146 { v with receiver := x }
  | .v146 v, .fee => store t (setFee a) fun x => .v146 { v with fee := x }
  | .v146 v, .senderKey => store t (setKeyArg a) fun x => .v146 { v with senderKey := x }
  | .v146 v, .receiverKey => store t (setKeyArg a) fun x => .v146 { v with receiverKey := x }
  | .v146 v, .senderSig => store t (setSigArg a) fun x => .v146 { v with senderSig := x }
  | .v146 v, .receiverSig => store t (setSigArg a) fun x => .v146 { v with receiverSig := x }
  | .v146 v, .outputs => store t (setRefundArg a) fun x => .v146 { v with refund := x }
  | .v208 v, .ercAddress => store t (setErcArg 20 a) fun x => .v208 { v with address := x }
  | .v208 v, .value => store t (setValue a) fun x => .v208 { v with value := x }
  | .v208 v, .fee => store t (setFee a) fun x => .v208 { v with fee := x }
  | .v208 v, .outputs => store t (setRefundArg a) fun x => .v208 { v with refund := x }
  | .v209 v, .address => store t (setAddressArg H a) fun x => .v209 { v with address := x }
  | .v209 v, .value => store t (setValue a) fun x => .v209 { v with value := x }
  | .v209 v, .fee => store t (setFee a) fun x => .v209 { v with fee := x }
  | .v209 v, .blockId => store t (setErcArg 32 a) fun x => .v209 { v with blockId := x }
  | .v209 v, .txId => store t (setErcArg 32 a) fun x => .v209 { v with txId := x }
  | .v210 v, .key => store t (setKeyArg a) fun x => .v210 { v with key := x }
  | .v210 v, .signature => store t (setSigArg a) fun x => .v210 { v with sig := x }
  | .v210 v, .fee => store t (setFee a) fun x => .v210 { v with fee := x }
  | .v210 v, .outputs => store t (setRefundArg a) fun x => .v210 { v with refund := x }
  | .v210 _, .registrationFee => store t (setRegistrationArg a) fun _ => t
  | _, _ => none

/-- `tx.field`, as the getters show it: Standard.py:126-132, 200-209, Minting.py:38-46, 61-69, 81-88, 103-110, 231-239, 254-260, 281-288,
300-307, ThreeBot.py:159-166, 240-245, 259-261, 269-293, 484-487, 521-527, 648-652, 666-667, 675-692, 913-916, 929-932, 966-972, 1025-1028,
1043-1086, ERC20.py:28-32, 41-45, 77-84, 117-121, 246-250, 262-266, 275-279, 288-292, 307-311, 429-433, 446-450, 482-489, 522-524,
534-538. `none`: the class has no such property with a setter. -/
def Tx.read (t : Tx) (f : Field) : Option Shown :=
  match t, f with
  | .v1 v, .outputs => some (.outs v.coinOutputs)
  | .v1 v, .data => some (.bytes v.data)
  | .v128 v, .data => some (.bytes v.data)
  | .v128 v, .mintCondition => some (.cond v.mintCondition)
  | .v128 v, .parentMint => some (.cond (v.parent.getD .nil))
  | .v128 v, .mintFulfillment => some (.ful (v.mintFulfillment.getD (.single .default none)))
  | .v129 v, .outputs => some (.outs v.coinOutputs)
  | .v129 v, .data => some (.bytes v.data)
  | .v129 v, .parentMint => some (.cond (v.parent.getD .nil))
  | .v129 v, .mintFulfillment => some (.ful (v.mintFulfillment.getD (.single .default none)))
  | .v144 v, .fee => some (.cur (feeOr v.fee))
  | .v144 v, .months => some (.int v.months)
  | .v144 v, .key => some (.key (keyOr v.key))
  | .v144 v, .signature => some (.sig (sigOr v.sig))
  | .v144 v, .outputs => some (.outs v.refund.toList)
  | .v145 v, .botid => some (.int (v.botid.getD 0))
  | .v145 v, .fee => some (.cur (feeOr v.fee))
  | .v145 v, .months => some (.int v.months)
  | .v145 v, .parentKey => some (.key (keyOr v.parentKey))
  | .v145 v, .signature => some (.sig (sigOr v.sig))
  | .v145 v, .outputs => some (.outs v.refund.toList)
  | .v146 v, .senderBot => some (.int (v.sender.getD 0))
  | .v146 v, .receiverBot => some (.int (v.receiver.getD 0))
  | .v146 v, .fee => some (.cur (feeOr v.fee))
  | .v146 v, .senderKey => some (.key (keyOr v.senderKey))
  | .v146 v, .receiverKey => some (.key (keyOr v.receiverKey))
  | .v146 v, .senderSig => some (.sig (sigOr v.senderSig))
  | .v146 v, .receiverSig => some (.sig (sigOr v.receiverSig))
  | .v146 v, .outputs => some (.outs v.refund.toList)
  | .v208 v, .ercAddress => some (.bytes v.address)
  | .v208 v, .value => some (.cur v.value)
  | .v208 v, .fee => some (.cur (feeOr v.fee))
  | .v208 v, .outputs => some (.outs v.refund.toList)
  | .v209 v, .address => some (.uh v.address)
  | .v209 v, .value => some (.cur v.value)
  | .v209 v, .fee => some (.cur (feeOr v.fee))
  | .v209 v, .blockId => some (.bytes v.blockId)
  | .v209 v, .txId => some (.bytes v.txId)
  | .v210 v, .key => some (.key (keyOr v.key))
  | .v210 v, .signature => some (.sig (sigOr v.sig))
  | .v210 v, .fee => some (.cur (feeOr v.fee))
  | .v210 v, .outputs => some (.outs v.refund.toList)
  | .v210 _, .registrationFee => some (.cur registrationFee)
  | _, _ => none

/-- `mint_fulfillment_defined()` (Minting.py:100-101, 278-279). -/
def Tx.mintDefined : Tx → Option Bool
  | .v128 v => some v.mintFulfillment.isSome
  | .v129 v => some v.mintFulfillment.isSome
  | _ => none

/-- The factories of Transactions.py:10-62 and the `__init__` methods; `nonce` is the random one of the minting transactions. -/
def Tx.fresh (nonce : Bytes) : Nat → Option Tx
  | 1 => some (.v1 {})
  | 128 => some (.v128 { nonce })
  | 129 => some (.v129 { nonce })
  | 144 => some (.v144 {})
  | 145 => some (.v145 {})
  | 146 => some (.v146 {})
  | 208 => some (.v208 {})
  | 209 => some (.v209 {})
  | 210 => some (.v210 {})
  | _ => none

/-- Assignments one after another; exceptions are caught and ignored. -/
def Tx.assignAll (H : Bytes → Bytes) (t : Tx) : List (Field × Arg) → Tx
  | [] => t
  | (f, a) :: l => Tx.assignAll H (match t.assign H f a with
    | none => t
    | some r => r.1) l

end TF
