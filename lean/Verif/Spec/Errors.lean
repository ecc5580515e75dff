import Verif.Spec.Swap
import Verif.Model.Errors
/-! # What an exception says is so

`Blames… f`: what the exception `f` of the operation carries is what the caller gave and what the explorers told, and the reason it stands
for is there. -/
namespace TF.Spec

/-- The contract object shows what the output holds. -/
structure Shows (c : Contract) (co : CoinOutput) : Prop where
  id : c.id = co.id
  amount : c.amount = co.value
  parties : co.condition = .atomicSwap c.sender c.receiver c.secretHash c.lockTime

/-- The classes of exceptions of errors.py that say something about a contract, a 3Bot or an amount. -/
def Telling (e : Err) : Prop :=
  e = .atomicSwapContractNotFound ∨ e = .atomicSwapContractSpent ∨ e = .atomicSwapContractInvalid ∨ e = .atomicSwapForbidden ∨
    e = .atomicSwapInvalidSecret ∨ e = .atomicSwapInsufficientAmount ∨ e = .threeBotNotFound ∨ e = .threeBotInactive

/-- Asking for something raises none of these itself. -/
def Quiet {α : Type} (r : Res α) : Prop := ∀ e, r = .error e → ¬ Telling e

/-- What is asked in the course of an operation on contracts raises none of these itself. -/
structure QuietWorld (W : SwapWorld) (told : Told) : Prop where
  outputs : ∀ id, Quiet (told id)
  time : Quiet W.chainTime
  addresses : Quiet W.addresses

/-- The exception of fetching a contract. -/
def BlamesFetch (told : Told) (id : BVal) : Fault → Prop
  | .contractNotFound i => i = id ∧ told id = .error .explorerNoContent
  | .contractSpent c t => c.unspent = false ∧ ∃ co, told id = .ok (co, some t) ∧ Shows c co
  | .plain e => ¬ Telling e
  | _ => False

/-- The contract is the one told about, and it is told to be unspent. -/
def IsTold (told : Told) (id : BVal) (c : Contract) : Prop := ∃ co, told id = .ok (co, none) ∧ Shows c co

/-- The exception of `redeem`, before it makes a transaction. -/
def BlamesRedeem (W : SwapWorld) (told : Told) (id secret : BVal) : Fault → Prop
  | .invalidSecret c => IsTold told id c ∧ ¬ Opens W c secret
  | .forbidden c => IsTold told id c ∧ ¬ Holds W.toWorld c.receiver
  | f => BlamesFetch told id f

/-- The exception of `refund`, before it makes a transaction. -/
def BlamesRefund (W : SwapWorld) (told : Told) (id : BVal) : Fault → Prop
  | .forbidden c => IsTold told id c ∧ ((∃ now, W.chainTime = .ok now ∧ now < c.lockTime) ∨ ¬ Holds W.toWorld c.sender)
  | f => BlamesFetch told id f

/-- The exception of `verify`. -/
def BlamesVerify (told : Told) (id : BVal) (given : Option Contract) : Fault → Prop
  | .contractInvalid c => given = some c ∨ (given = none ∧ c.unspent = true ∧ IsTold told id c)
  | .plain e => ¬ Telling e
  | f => given = none ∧ BlamesFetch told id f

/-- The surroundings in which the explorers tell this about outputs. -/
def telling (W : SwapWorld) (told : Told) : SwapWorld := { W with output := fun id => (told id).map fun x => (x.1, x.2.isSome) }

/-! ## Explorers -/

/-- The exception of a `get` from the explorers, asked in this order. -/
def BlamesGet (ask : Str → Reply) (decode : Bytes → Option Str) (endpoint : Str) (all order : List Address) : Fault → Prop
  | .noContent ep => ep = endpoint ∧ ∃ a, some a ∈ order ∧
      ((∃ line, ask a = .answer 204 line) ∨ ∃ body s, ask a = .refused 400 body ∧ decode body = some s ∧ saysNothing s)
  | .serverError ep => ep = endpoint ∧ ∃ a, some a ∈ order ∧ ((∃ code line, ask a = .answer code line ∧ code ≠ 200) ∨ ∃ code body, ask a = .refused code body)
  | .notAvailable ep addresses => ep = endpoint ∧ addresses = all ∧ ∀ a ∈ order, ∃ s, a = some s ∧ ask s = .unreachable
  | .plain e => e = .typeError ∨ e = .valueError
  | _ => False

/-- The exception of a `post` to the explorers, asked in this order. -/
def BlamesPost (dumps : Json → Str) (ask : Str → Bytes → Reply) (endpoint : Str) (all order : List Address) (data : PostData) : Fault → Prop
  | .postError ep d => ep = endpoint ∧ data.encode dumps = .ok d ∧
      ∃ a, some a ∈ order ∧ ((∃ code line, ask a d = .answer code line ∧ code ≠ 200) ∨ ∃ code body, ask a d = .refused code body)
  | .notAvailable ep addresses => ep = endpoint ∧ addresses = all ∧ ∀ a ∈ order, ∃ s d, a = some s ∧ data.encode dumps = .ok d ∧ ask s d = .unreachable
  | .plain e => e = .typeError ∨ e = .valueError
  | _ => False

/-! ## 3Bots -/

/-- The 3Bot was told to have expired at `exp`, which is over at the time `now`. -/
def Expired (records : Records) (id exp now : Int) : Prop := (∃ k, records id = .ok (k, exp)) ∧ exp ≤ now

/-- Looking up 3Bots raises only `ThreeBotNotFound`, with the identifier asked for, or nothing that says something about a 3Bot. -/
def Looked (records : Records) : Prop := ∀ id f, records id = .error f → f = .botNotFound (intStr id) ∨ ∃ e, f = .plain e ∧ ¬ Telling e

/-- The exception of an operation on the 3Bots `ids`. -/
def BlamesBot (W : World) (records : Records) (ids : List Int) : Fault → Prop
  | .botNotFound s => ∃ id ∈ ids, s = intStr id ∧ records id = .error (.botNotFound s)
  | .botInactive id exp => id ∈ ids ∧ ∃ now, W.chainTime = .ok now ∧ Expired records id exp now
  | .plain e => ¬ Telling e
  | _ => False

/-! ## Addresses -/

/-- The argument stands for the address. -/
def WhichNames (H : Bytes → Bytes) : WhichKey → UnlockHash → Prop
  | .str s, u => Names H s u
  | .uh v, u => u = v
  | _, _ => False

end TF.Spec
