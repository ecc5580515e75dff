import Verif.Model.Client
import Verif.Model.WalletOps
/-!
# What a wallet tells about ERC20 registrations
-/
namespace TF

/-- TFChainWallet.py:1578-1593: the key of the wallet the caller means. The class `AddressNotInWallet` is modelled as `Exception`, like it is
derived from. -/
def ownKey (H : Bytes → Bytes) (keys : Keys) (addresses : Res (List Str)) : WhichKey → Res PublicKey
  | .new => match keys.get? keys.primary with
    | some k => .ok k
    | none => .error .keyError
  | .str s => match keys.get? s with
    | some k => .ok k
    | none => do
      let _ ← UnlockHash.fromJson H (.str s)
      throw .exception
  | .uh u => match keys.get? (u.str H) with
    | some k => .ok k
    | none => .error .exception
  | .index i => do
    let addrs ← addresses
    if i < 0 ∨ i ≥ addrs.length then throw .valueError
    match addrs[i.toNat]? with
    | none => throw .indexError
    | some a => match keys.get? a with
      | none => throw .keyError
      | some k => return k
  | .other => .error .valueError

/-- TFChainWallet.py:1567-1596 `erc20.address_get` of a wallet (`keys` and `addresses` after the key scan of `addresses`). -/
def Client.ownErc20 (C : Client) (keys : Keys) (addresses : Res (List Str)) (which : WhichKey) : Res Erc20Info := do
  let k ← ownKey C.H keys addresses which
  C.erc20Get (.uh (← k.unlockhash C.H))

/-- TFChainWallet.py:1609-1614: one address after the other; `ExplorerNoContent` means it is not registered. -/
def Client.erc20All (C : Client) : List Str → Res (List Erc20Info)
  | [] => .ok []
  | a :: rest => match C.erc20Get (.str a) with
    | .ok i => do return i :: (← C.erc20All rest)
    | .error .explorerNoContent => C.erc20All rest
    | .error e => .error e

/-- TFChainWallet.py:1598-1616 `erc20.addresses_get` of a wallet with these addresses (after the key scan). -/
def Client.ownErc20All (C : Client) (addresses : Res (List Str)) : Res (List Erc20Info) := do C.erc20All (← addresses)

end TF
