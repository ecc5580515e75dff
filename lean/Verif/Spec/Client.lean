import Verif.Model.Client
/-! # What an explorer's answer says -/
namespace TF.Spec

/-- The transaction is the coin creation of an ERC20 withdrawal (version 209). -/
def IsWithdrawal : Tx → Prop
  | .v209 _ => True
  | _ => False

/-- The explorer's entry `e` contains the transaction `t` as written by its author. -/
def EntryTx (L : IpLib) (H : Bytes → Bytes) (e : Json) (t : Tx) : Prop :=
  ∃ raw, e.idx "rawtransaction" = .ok raw ∧ Tx.fromJson L H raw = .ok t

/-- The `k`-th element of the list in field `field` of the entry. -/
def EntryField (e : Json) (field : String) (k : Nat) (j : Json) : Prop := ∃ l, e.listField field = .ok l ∧ l[k]? = some j

/-- The entry lists `o` as the `k`-th coin output: value and condition as in the transaction, the id as in `coinoutputids`. -/
def ListsCoin (L : IpLib) (H : Bytes → Bytes) (e : Json) (k : Nat) (o : CoinOutput) : Prop :=
  ∃ t o' j, EntryTx L H e t ∧ t.coinOutputs[k]? = some o' ∧ o'.value = o.value ∧ o'.condition = o.condition ∧
    EntryField e "coinoutputids" k j ∧ hashOfJson j = .ok o.id

/-- The entry lists `o` as the `k`-th blockstake output. -/
def ListsStake (L : IpLib) (H : Bytes → Bytes) (e : Json) (k : Nat) (o : StakeOutput) : Prop :=
  ∃ t o' j, EntryTx L H e t ∧ t.stakeOutputs[k]? = some o' ∧ o'.value = o.value ∧ o'.condition = o.condition ∧
    EntryField e "blockstakeoutputids" k j ∧ hashOfJson j = .ok o.id

/-- The entry lists `ci` as the `k`-th coin input: parent id and fulfillment as in the transaction, the spent output as in
`coininputoutputs`, with the parent id as its id. -/
def ListsInput (L : IpLib) (H : Bytes → Bytes) (e : Json) (k : Nat) (ci : CoinInput) : Prop :=
  ∃ t ins ci' j o, EntryTx L H e t ∧ t.coinInputs = some ins ∧ ins[k]? = some ci' ∧ ci'.parentId = ci.parentId ∧
    ci'.fulfillment = ci.fulfillment ∧ EntryField e "coininputoutputs" k j ∧ CoinOutput.fromJson H j = .ok o ∧
    ci.parent = some { o with id := ci.parentId }

/-- The entries of the answer to a question about a hash. -/
def Entries (resp : Json) (type : String) (l : List Json) : Prop :=
  resp.idx "hashtype" = .ok (.str type.toList) ∧ ∃ ts, resp.idx "transactions" = .ok ts ∧ ts.iter = .ok l

/-- `t` spends the coin output with this id. -/
def Spends (t : Tx) (id : Hash) : Prop := ∃ ins, t.coinInputs = some ins ∧ ∃ ci ∈ ins, ci.parentId = id

end TF.Spec
