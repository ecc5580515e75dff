import Verif.Model.Fields
/-! # What the properties of a transaction show -/
namespace TF.Spec

/-- The properties of the classes. -/
def fieldsOf : Nat → List Field
  | 1 => [.outputs, .data]
  | 128 => [.data, .mintCondition, .parentMint, .mintFulfillment]
  | 129 => [.outputs, .data, .parentMint, .mintFulfillment]
  | 144 => [.fee, .months, .key, .signature, .outputs]
  | 145 => [.botid, .fee, .months, .parentKey, .signature, .outputs]
  | 146 => [.senderBot, .receiverBot, .fee, .senderKey, .receiverKey, .senderSig, .receiverSig, .outputs]
  | 208 => [.ercAddress, .value, .fee, .outputs]
  | 209 => [.address, .value, .fee, .blockId, .txId]
  | 210 => [.key, .signature, .fee, .outputs, .registrationFee]
  | _ => []

/-- Before anything is assigned. -/
def initially : Field → Shown
  | .fee | .value => .cur ⟨none⟩
  | .months | .botid | .senderBot | .receiverBot => .int 0
  | .key | .parentKey | .senderKey | .receiverKey => .key .default
  | .signature | .senderSig | .receiverSig => .sig ⟨[], true⟩
  | .ercAddress | .blockId | .txId | .data => .bytes []
  | .address => .uh .default
  | .outputs => .outs []
  | .registrationFee => .cur ⟨some ⟨false, 10, 0⟩⟩
  | .mintCondition | .parentMint => .cond .nil
  | .mintFulfillment => .ful (.single .default none)

/-- Nothing, or exactly `n` bytes. -/
def exactly (n : Nat) (b : Bytes) : Option Bytes := if b = [] ∨ b.length = n then some b else none

/-- `n` bytes, as they are or in hexadecimal digits. -/
def bytesOf (n : Nat) (prefixed : Bool) : Arg → Option Bytes
  | .none => some []
  | .bytes b => exactly n b
  | .bin d => exactly n d.value
  | .str s => match fromHex (if prefixed ∧ (s.take 2 = ['0', 'x'] ∨ s.take 2 = ['0', 'X']) then s.drop 2 else s) with
    | none => none
    | some b => exactly n b
  | _ => none

/-- At most 83 bytes; texts are written in UTF-8. -/
def short (b : Bytes) : Option Bytes := if b.length ≤ 83 then some b else none

/-- The amount an argument stands for (see C13 to C15 for the texts and decimals). -/
def amountArg : Arg → Option Currency
  | .none => some ⟨none⟩
  | .cur c => some ⟨some c.value⟩
  | .int i => if 0 ≤ i then some ⟨some ⟨false, i.toNat, 0⟩⟩ else none
  | .str s => (Currency.set (.str s)).toOption
  | .dec d => (Currency.set (.dec d)).toOption
  | _ => none

/-- What an assignment to a property of a class makes it show; `none`: it is refused. -/
def means (H : Bytes → Bytes) (version : Nat) : Field → Arg → Option Shown
  | .fee, a | .value, a => (amountArg a).map .cur
  | .months, .int n => if (if version = 144 then 1 else 0) ≤ n ∧ n ≤ 24 then some (.int n) else none
  | .botid, .none | .senderBot, .none | .receiverBot, .none => some (.int 0)
  | .botid, .int i | .senderBot, .int i | .receiverBot, .int i => if 1 ≤ i then some (.int i) else none
  | .key, .none | .parentKey, .none | .senderKey, .none | .receiverKey, .none => some (.key .default)
  | .key, .key k | .parentKey, .key k | .senderKey, .key k | .receiverKey, .key k => some (.key k)
  | .signature, a | .senderSig, a | .receiverSig, a => (bytesOf 64 false a).map fun b => .sig ⟨b, true⟩
  | .ercAddress, a => (bytesOf 20 true a).map .bytes
  | .blockId, a | .txId, a => (bytesOf 32 true a).map .bytes
  | .address, .none => some (.uh .default)
  | .address, .uh u => some (.uh u)
  | .address, .str s => (UnlockHash.fromStr H s).toOption.map .uh
  | .outputs, .none => some (.outs [])
  | .outputs, .outputs l => if version = 1 ∨ version = 129 ∨ l.length ≤ 1 then some (.outs l) else none
  | .outputs, .output co => if version = 1 ∨ version = 129 then none else some (.outs [co])
  | .outputs, .int 0 | .outputs, .str [] | .outputs, .bytes [] => if version = 1 ∨ version = 129 then some (.outs []) else none
  | .outputs, .bin d => if (version = 1 ∨ version = 129) ∧ d.value = [] then some (.outs []) else none
  | .outputs, .dec (.fin d) => if (version = 1 ∨ version = 129) ∧ d.coef = 0 then some (.outs []) else none
  | .registrationFee, .none => some (.cur ⟨some ⟨false, 10, 0⟩⟩)
  | .registrationFee, a => match amountArg a with
    | some c => if c.eqv ⟨some ⟨false, 10, 0⟩⟩ then some (.cur ⟨some ⟨false, 10, 0⟩⟩) else none
    | none => none
  | .mintCondition, .none | .parentMint, .none => some (.cond .nil)
  | .mintCondition, .cond c | .parentMint, .cond c => some (.cond c)
  | .mintFulfillment, .none => some (.ful (.single .default none))
  | .mintFulfillment, .ful f => some (.ful f)
  | .data, .none => some (.bytes [])
  | .data, .str s => (short (utf8 s)).map .bytes
  | .data, .bytes b => (short b).map .bytes
  | .data, .bin d => (short d.value).map .bytes
  | _, _ => none

/-- What a property shows after a history of assignments: the last one that was not refused counts. -/
def shows (H : Bytes → Bytes) (version : Nat) (f : Field) (l : List (Field × Arg)) : Shown :=
  ((l.filterMap fun x => if x.1 = f then means H version f x.2 else none).getLast?).getD (initially f)

/-- Numbers that are not ints pass the comparisons of the setter of the number of months. -/
def Odd (x : Field × Arg) : Prop := x.1 = .months ∧ ((∃ c, x.2 = .cur c) ∨ ∃ d, x.2 = .dec d)

/-- No list of outputs of an ordinary payment or a coin creation is refused: it is emptied first. -/
def Kept (H : Bytes → Bytes) (version : Nat) (x : Field × Arg) : Prop :=
  x.1 = .outputs → version = 1 ∨ version = 129 → means H version .outputs x.2 ≠ none

/-- The fees that are paid: none before one is assigned, or when the last one that was not refused is `None`. -/
def feesPaid (l : List (Field × Arg)) : List Currency :=
  match (l.filterMap fun x => if x.1 = .fee then (amountArg x.2).map fun c => (x.2, c) else none).getLast? with
  | none => []
  | some (Arg.none, _) => []
  | some (_, c) => [c]

/-- Was the last fulfillment that was accepted one? `None` takes it back. -/
def lastFulfilled (d : Bool) : List (Field × Arg) → Bool
  | [] => d
  | (.mintFulfillment, .ful _) :: l => lastFulfilled true l
  | (.mintFulfillment, .none) :: l => lastFulfilled false l
  | _ :: l => lastFulfilled d l

end TF.Spec
