import Verif.Model.Primitive
/-! # A block stake set from anything, also from a currency amount -/
namespace TF

/-- What a `Blockstake` may be set to, with a `Currency` as well (types/PrimitiveTypes.py:379-397). -/
inductive StakeArg
  | none
  | int (i : Int)
  | str (s : Str)
  | currency (c : Currency)
  | other

/-- What a `Blockstake` then holds in `_value`: an `int`, or the `Decimal` of the currency. -/
inductive StakeHeld
  | whole (n : Nat)
  | amount (d : Dec)
  deriving DecidableEq

/-- types/PrimitiveTypes.py:379-397 `value.setter`: a `Currency` hands over its `Decimal` (:384-386) unchecked. -/
def StakeHeld.set : StakeArg → Res StakeHeld
  | .none => .ok (.whole 0)
  | .int i => if i < 0 then .error .typeError else .ok (.whole i.toNat)
  | .str s => match pyInt s with
    | Option.none => .error .valueError
    | some i => if i < 0 then .error .typeError else .ok (.whole i.toNat)
  | .currency c => .ok (.amount c.value)
  | .other => .error .typeError

/-- types/PrimitiveTypes.py:400-401 `__int__`: `int(stake)` is `_value`, and Python refuses an `__int__` that is no `int`. -/
def StakeHeld.asInt : StakeHeld → Res Nat
  | .whole n => .ok n
  | .amount _ => .error .typeError

/-- types/PrimitiveTypes.py:408-416: a `Decimal` has no `bit_length`. -/
def StakeHeld.sia : StakeHeld → Out
  | .whole n => amountSia n
  | .amount _ => .raise .attributeError

/-- types/PrimitiveTypes.py:418-425. -/
def StakeHeld.riv : StakeHeld → Out
  | .whole n => amountRiv n
  | .amount _ => .raise .attributeError

end TF
