import Verif.Model.Report
import Verif.Spec.Wallet
/-! # What a balance holds after a history, and what it says -/
namespace TF.Spec

/-- The output with this id was reported as an unspent output of the wallet. -/
def ReportedUnspent (es : List BalEvent) (id : Hash) : Prop := ∃ o c, .report o c false ∈ es ∧ o.id = id

/-- The output with this id was reported as a confirmed unspent output. -/
def ReportedConfirmed (es : List BalEvent) (id : Hash) : Prop := ∃ o, .report o true false ∈ es ∧ o.id = id

/-- The last word about the confirmation of the unspent output with this id was that it is unconfirmed. -/
def LastUnconfirmed (es : List BalEvent) (id : Hash) : Prop :=
  ∃ before o after, es = before ++ .report o false false :: after ∧ o.id = id ∧ ¬ ReportedConfirmed after id

/-- Some output at the address with this text was reported. -/
def ReportedAt (H : Bytes → Bytes) (es : List BalEvent) (a : Str) : Prop :=
  ∃ o c s u, .report o c s ∈ es ∧ o.condition.unlockhash H = .ok u ∧ u.str H = a

/-- The event concerns the personal part of a balance: the chain state, or an output that does not belong to a multi-signature wallet. -/
def personal (H : Bytes → Bytes) : BalEvent → Bool
  | .chain .. => true
  | .report o _ _ => match o.condition.unlockhash H with
    | .ok u => u.type ≠ 3
    | .error _ => false

/-- The event reports an output of the multi-signature wallet with this address. -/
def concerns (H : Bytes → Bytes) (a : Str) : BalEvent → Bool
  | .chain .. => false
  | .report o _ _ => match o.condition.unlockhash H with
    | .ok u => u.type = 3 ∧ u.str H = a
    | .error _ => false

/-- Every reported output of a multi-signature wallet is under a plain multi-signature condition of possible numbers, without time lock. -/
def PlainMulti (H : Bytes → Bytes) (es : List BalEvent) : Prop :=
  ∀ o c s u, .report o c s ∈ es → o.condition.unlockhash H = .ok u → u.type = 3 →
    ∃ owners n, o.condition = .multiSig owners n ∧ 1 ≤ n ∧ n ≤ owners.length

/-- The value of a text of decimal digits. -/
def decimal (s : Str) : Nat := s.foldl (fun n c => 10 * n + (c.toNat - 48)) 0

/-- `s` is a number of smallest units written in TFT: digits, for a fraction a point and at most nine more digits, and the unit. -/
def InTft (s : Str) (n : Nat) : Prop :=
  ∃ whole frac : Str, s = whole ++ (if frac = [] then [] else '.' :: frac) ++ " TFT".toList ∧ whole ≠ [] ∧ frac.length ≤ 9 ∧
    (∀ c ∈ whole ++ frac, '0' ≤ c ∧ c ≤ '9') ∧ decimal (whole ++ frac) * 10 ^ (9 - frac.length) = n

/-- The outputs that are locked, by the chain state the balance knows (none are known to be locked without one). -/
def lockedIn (b : Balance) (m : OutMap) : List CoinOutput :=
  if b.time > 0 ∧ b.height > 0 then m.values.filter fun co => lockedCheck co.condition.lock b.height b.time else []
/-- The outputs that can be spent, by the chain state the balance knows. -/
def freeIn (b : Balance) (m : OutMap) : List CoinOutput :=
  if b.time > 0 ∧ b.height > 0 then m.values.filter fun co => !lockedCheck co.condition.lock b.height b.time else m.values

/-- The report on a balance: the amounts in TFT of free and locked outputs, of unconfirmed ones if there are any, and of those being spent, if any. -/
def ReportOf (b : Balance) (s : Str) : Prop :=
  ∃ a l ua ul d : Str, InTft a (total (freeIn b b.outputs)) ∧ InTft l (total (lockedIn b b.outputs)) ∧
    InTft ua (total (freeIn b b.unconf)) ∧ InTft ul (total (lockedIn b b.unconf)) ∧ InTft d (total b.unconfSpent.values) ∧
    s = a ++ " available and ".toList ++ l ++ " locked".toList ++
      (if total (b.unconf.values) = 0 then [] else "\nUnconfirmed: ".toList ++ ua ++ " available ".toList ++ ul ++ " locked".toList) ++
      (if total b.unconfSpent.values = 0 then [] else "\nUnconfirmed Balance Deduction: -".toList ++ d)

/-- Balances of legal amounts. -/
def SaneBalance (b : Balance) : Prop := SaneOutputs b.outputs.values ∧ SaneOutputs b.unconf.values ∧ SaneOutputs b.unconfSpent.values

/-- What is printed first: the state of the chain, if it is known. -/
def headingOf (clock : Int → Str) (b : Balance) : Str :=
  if b.time > 0 ∧ b.height > 0 then ("wallet balance on height " ++ toString b.height ++ " at ").toList ++ clock b.time ++ ['\n']
  else "wallet balance at an unknown time\n".toList

/-- What is printed about a multi-signature wallet: signatures needed, number of owners, address, owners, and the report. -/
def WalletText (H : Bytes → Bytes) (m : MultiBalance) (text : Str) : Prop :=
  ∃ u s, (Condition.multiSig m.owners m.required).unlockhash H = .ok u ∧ ReportOf m.base s ∧
    text = ("\n\nMultiSignature (" ++ toString m.required ++ "-of-" ++ toString m.owners.length ++ ") Wallet ").toList ++ u.str H ++
      ":\nOwners: ".toList ++ List.intercalate ", ".toList (m.owners.map (·.str H)) ++ ['\n'] ++ s

end TF.Spec
