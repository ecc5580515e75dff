import Verif.Model.Balance
/-!
# TFChainWallet.py: what a balance says when it is printed
-/
namespace TF

/-- TFChainWallet.py:2109-2121 `WalletBalance._human_readable_balance`. `+=` on the result; `sum([])`, the int 0, prints as nothing since it is
not greater than 0. -/
def Balance.report (b : Balance) : Res Str := do
  let available ← b.availableCoins
  let locked ← b.lockedCoins
  let result := available.str true ++ " available and ".toList ++ locked.str true ++ " locked".toList
  let unconfirmed ← b.unconfCoins
  let unconfirmedLocked ← b.unconfLockedCoins
  let zero : Currency := ⟨some ⟨false, 0, 0⟩⟩
  let result := if zero.lt unconfirmed || zero.lt unconfirmedLocked then
      result ++ "\nUnconfirmed: ".toList ++ unconfirmed.str true ++ " available ".toList ++ unconfirmedLocked.str true ++ " locked".toList
    else result
  let spent ← Currency.set (.cur (← sumCurrency (b.unconfSpent.values.map (·.value))))
  return if zero.lt spent then result ++ "\nUnconfirmed Balance Deduction: -".toList ++ spent.str true else result

/-- `", ".join(l)`. -/
def joinComma : List Str → Str
  | [] => []
  | [s] => s
  | s :: l => s ++ ", ".toList ++ joinComma l

/-- TFChainWallet.py:2191-2195 `MultiSigWalletBalance._human_readable_balance`. -/
def MultiBalance.report (H : Bytes → Bytes) (m : MultiBalance) : Res Str := do
  let address ← m.address H
  let rest ← m.base.report
  return "MultiSignature (".toList ++ intStr m.required ++ "-of-".toList ++ natStr m.owners.length ++ ") Wallet ".toList ++ address ++ ":\n".toList ++
    "Owners: ".toList ++ joinComma (m.owners.map (·.str H)) ++ "\n".toList ++ rest

/-- TFChainWallet.py:2124-2129: the first line; `clock` is `epoch2HRDateTime`. -/
def Balance.heading (clock : Int → Str) (b : Balance) : Str :=
  if b.height > 0 ∧ b.time > 0 then "wallet balance on height ".toList ++ intStr b.height ++ " at ".toList ++ clock b.time ++ "\n".toList
  else "wallet balance at an unknown time\n".toList

/-- TFChainWallet.py:2123-2131 `WalletBalance.__repr__`. -/
def Balance.repr (clock : Int → Str) (b : Balance) : Res Str := do return b.heading clock ++ (← b.report)

/-- TFChainWallet.py:2282-2284: the active multi-signature wallets. -/
def reportWallets (H : Bytes → Bytes) : MultiMap → Res Str
  | [] => .ok []
  | (_, m) :: l =>
    if m.base.active then do return "\n\n".toList ++ (← m.report H) ++ (← reportWallets H l)
    else reportWallets H l

/-- TFChainWallet.py:2280-2285 `WalletsBalance.__repr__`. -/
def Wallets.repr (H : Bytes → Bytes) (clock : Int → Str) (w : Wallets) : Res Str := do
  return (← w.base.repr clock) ++ (← reportWallets H w.wallets)

end TF
