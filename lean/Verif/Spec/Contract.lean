import Verif.Model.Contract
import Verif.Spec.Address
import Verif.Spec.Report
/-! # Atomic swap contracts: what is the same, and what is said about them -/
namespace TF.Spec

/-- A contract as the chain has them: a real identifier, a legal amount, real parties, a secret hash and a time. -/
structure FullContract (c : Contract) : Prop where
  id : c.id.value.length = 32
  amount : GoodCurrency c.amount
  condition : CanonicalCondition (.atomicSwap c.sender c.receiver c.secretHash c.lockTime)

/-- The same contract in the same state, for the same amount (in smallest units). -/
def SameContract (a b : Contract) : Prop :=
  a.id = b.id ∧ amount a.amount = amount b.amount ∧ a.unspent = b.unspent ∧ a.sender = b.sender ∧ a.receiver = b.receiver ∧
    a.secretHash = b.secretHash ∧ a.lockTime = b.lockTime

/-- What has to be said about the state of a contract at a time: it is spent, it can be refunded since a date, or it can be refunded at a date
after as many seconds as the text in brackets is read as. -/
def Tells (clock : Int → Str) (F : FloatSeconds) (c : Contract) (now : Int) (s : Str) : Prop :=
  if c.unspent = false then s = "Spent and no longer available.".toList
  else if c.lockTime ≤ now then s = "Refund is available since ".toList ++ clock c.lockTime ++ ".".toList
  else ∃ dur, s = "Refund available at ".toList ++ clock c.lockTime ++ " (in: ".toList ++ dur ++ ").".toList ∧
    durClean F (.str dur) = .ok (c.lockTime - now)

/-- The lines of the description of a contract. -/
def DescriptionOf (H : Bytes → Bytes) (clock : Int → Str) (F : FloatSeconds) (c : Contract) (now : Int) (s : Str) : Prop :=
  ∃ status value : Str, Tells clock F c now status ∧ InTft value (amount c.amount) ∧
    s = (List.intercalate ('\n' :: List.replicate 8 ' ')
      ["Atomic Swap Contract ".toList ++ toHex c.id.value ++ ":".toList, status, "Value: ".toList ++ value, "Sender: ".toList ++ c.sender.str H,
       "Receiver: ".toList ++ c.receiver.str H, "Secret Hash: ".toList ++ toHex (c.secretHash.getD [])])

end TF.Spec
