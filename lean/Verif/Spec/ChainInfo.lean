import Verif.Spec.Address
import Verif.Spec.Keys
import Verif.Model.Overview
/-! # What explorers know about ERC20 withdraw addresses, the mint condition and the last block -/
namespace TF.Spec

/-- The address of a wallet: type 1 and a 32-byte hash. -/
def PersonalAddress (u : UnlockHash) : Prop := u.type = 1 ∧ u.hash.value.length = 32

/-- The answer says that `u` is registered as ERC20 withdraw address with `a` on the other side, `n` blocks ago. -/
def SaysRegistered (H : Bytes → Bytes) (resp : Json) (u : UnlockHash) (a : Bytes) (n : Int) : Prop :=
  resp.idx "hashtype" = .ok (.str "unlockhash".toList) ∧ ∃ e, resp.idx "erc20info" = .ok e ∧ e.idx "tftaddress" = .ok (.str (u.str H)) ∧
    e.idx "erc20address" = .ok (.str (erc20Str a)) ∧ e.idx "confirmations" = .ok (.int n)

/-- The answer knows the address but no registration. -/
def SaysUnregistered (resp : Json) : Prop :=
  ∃ fields, resp = .obj fields ∧ jget fields "hashtype" = some (.str "unlockhash".toList) ∧ jget fields "erc20info" = none

/-- The explorers know the registrations `reg` (the ERC20 address, of 20 bytes, and the confirmations). About an address that is not
registered they have no content, or content without registration. -/
def KnowsRegistrations (C : Client) (reg : UnlockHash → Option (Bytes × Int)) : Prop :=
  ∀ u, PersonalAddress u → match reg u with
    | some (a, n) => a.length = 20 ∧ ∃ resp, C.get ("/explorer/hashes/".toList ++ u.str C.H) = .ok resp ∧ SaysRegistered C.H resp u a n
    | none => C.get ("/explorer/hashes/".toList ++ u.str C.H) = .error .explorerNoContent ∨
      ∃ resp, C.get ("/explorer/hashes/".toList ++ u.str C.H) = .ok resp ∧ SaysUnregistered resp

/-- What should be told about an address. -/
def registration? (reg : UnlockHash → Option (Bytes × Int)) (u : UnlockHash) : Option Erc20Info := (reg u).map fun r => ⟨u, r.1, r.2⟩

/-- What a question about a registration, or none, is answered with. -/
def told? : Option Erc20Info → Res Erc20Info
  | some i => .ok i
  | none => .error .explorerNoContent

/-- The wallet has the key of the address `u`. -/
def OwnsAddress (H : Bytes → Bytes) (keys : Keys) (u : UnlockHash) : Prop := ∃ p ∈ keys.pairs, p.2.unlockhash H = .ok u

end TF.Spec
