import Verif.Model.Swap
import Verif.Model.Duration
/-!
# types/AtomicSwap.py: comparing and printing a contract
-/
namespace TF

/-- types/AtomicSwap.py:46, 110: `condition.json()` of two contracts is the same. The two dicts have the same keys, so they are equal if these four
values are (types/ConditionTypes.py:606-612). -/
def Contract.sameCondition (H : Bytes → Bytes) (a b : Contract) : Bool :=
  a.sender.str H == b.sender.str H && a.receiver.str H == b.receiver.str H &&
    (hashedSecretData a.secretHash).str == (hashedSecretData b.secretHash).str && a.lockTime == b.lockTime

/-- types/AtomicSwap.py:41-49 `__eq__` with another contract. -/
def Contract.eqv (H : Bytes → Bytes) (a b : Contract) : Res Bool := do
  if a.unspent ≠ b.unspent then return false
  if !(← (⟨a.id.value, some 32, .hex⟩ : BinData).eq ⟨b.id.value, some 32, .hex⟩) then return false
  if !a.amount.eqv b.amount then return false
  return a.sameCondition H b

/-- types/AtomicSwap.py:32-39: the time a contract is looked at; `host` is the clock of the computer. -/
def contractNow (host : Int) : Option Int → Int
  | none => host
  | some t => if t ≤ 0 then host else t

/-- types/AtomicSwap.py:133-144: what is said about the state; `clock` is `jstime.epoch2HRDateTime`. -/
def Contract.status (clock : Int → Str) (F : FloatSeconds) (now : Int) (c : Contract) : Res Str :=
  if c.unspent then
    if now ≥ c.lockTime then .ok ("Refund is available since ".toList ++ clock c.lockTime ++ ".".toList)
    else do
      let dur ← durString F (.int (c.lockTime - now))
      return "Refund available at ".toList ++ clock c.lockTime ++ " (in: ".toList ++ dur ++ ").".toList
  else .ok "Spent and no longer available.".toList

/-- types/AtomicSwap.py:145-152: a line ends, and the next one is indented. -/
def newLine : Str := '\n' :: List.replicate 8 ' '

/-- types/AtomicSwap.py:132-152 `__repr__`. -/
def Contract.text (H : Bytes → Bytes) (clock : Int → Str) (F : FloatSeconds) (now : Int) (c : Contract) : Res Str := do
  let status ← c.status clock F now
  return strip (newLine ++ "Atomic Swap Contract ".toList ++ c.id.str ++ ":".toList ++ newLine ++ status ++ newLine ++ "Value: ".toList ++ c.amount.str true ++
    newLine ++ "Sender: ".toList ++ c.sender.str H ++ newLine ++ "Receiver: ".toList ++ c.receiver.str H ++ newLine ++ "Secret Hash: ".toList ++
    (hashedSecretData c.secretHash).str ++ newLine)

end TF
