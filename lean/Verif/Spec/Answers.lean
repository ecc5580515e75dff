import Verif.Spec.WalletBalance
import Verif.Spec.Address
/-! # Answers of the documented form -/
namespace TF.Spec

/-- The list in the field has an element for each of `n` things, and each of them can be read. -/
def Lists {α : Type} (e : Json) (field : String) (n : Nat) (read : Json → Res α) : Prop :=
  ∃ l, e.listField field = .ok l ∧ l.length = n ∧ ∀ j ∈ l, ∃ x, read j = .ok x

/-- The entry says that the transaction is not confirmed. -/
def SaysUnconfirmed (e : Json) : Prop := ∃ l, e = .obj l ∧ jget l "unconfirmed" = some (.bool true)

/-- The entry says that the transaction is confirmed in the block of height `n`. -/
def SaysHeight (e : Json) (n : Int) : Prop :=
  ∃ l, e = .obj l ∧ (jget l "unconfirmed" = none ∨ jget l "unconfirmed" = some (.bool false)) ∧ jget l "height" = some (.int n)

/-- An explorer's entry for the transaction `t` with the id `id`: the transaction, the outputs its inputs spend, and the ids of its outputs. -/
structure EntryFor (L : IpLib) (H : Bytes → Bytes) (e : Json) (t : Tx) (id : Hash) : Prop where
  tx : EntryTx L H e t
  id : ∃ s, e.idx "id" = .ok (.str s) ∧ Hash.new (.str s) = .ok id
  inputs : ∃ ins, t.coinInputs = some ins ∧ Lists e "coininputoutputs" ins.length (CoinOutput.fromJson H)
  outputs : Lists e "coinoutputids" t.coinOutputs.length hashOfJson
  stakeInputs : Lists e "blockstakeinputoutputs" t.stakeInputs.length (StakeOutput.fromJson H)
  stakeOutputs : Lists e "blockstakeoutputids" t.stakeOutputs.length hashOfJson

/-- The output is spent or created by the transaction. -/
def Touches (t : Tx) (o : CoinOutput) : Prop := (∃ ins, t.coinInputs = some ins ∧ ∃ ci ∈ ins, o = ci.parentOutput) ∨ o ∈ t.coinOutputs

/-- Every output in the history has an address. -/
def Addressed (H : Bytes → Bytes) (h : History) : Prop :=
  ∀ t ∈ h.txs, (∃ ins, t.tx.coinInputs = some ins) ∧ ∀ o, Touches t.tx o → ∃ u, o.condition.unlockhash H = .ok u

/-- A (possibly locked) multi-signature condition that can be fulfilled. -/
def NamesOwners (c : Condition) : Prop :=
  ∃ owners n, 1 ≤ n ∧ n ≤ (owners.length : Int) ∧ (c = .multiSig owners n ∨ ∃ l, c = .lockTime l (.multiSig owners n))

/-- Every output of the history at its address names the owners, and no transaction sets the mint condition. -/
def OwnersKnown (H : Bytes → Bytes) (h : History) : Prop :=
  ∀ t ∈ h.txs, ¬ IsMintDefinition t.tx ∧ ∀ o, Touches t.tx o → AtAddress H (h.address.str H) o → NamesOwners o.condition

/-- The multi-signature addresses that the histories of these addresses mention, one after the other. -/
def mentioned (C : Client) : List UnlockHash → List UnlockHash
  | [] => []
  | u :: l => (match C.unlockhashGet (.str (u.str C.H)) with
    | .ok h => h.multisigs
    | .error _ => []) ++ mentioned C l

/-- The explorer knows nothing about the address, or a history. -/
def Answers (C : Client) (u : UnlockHash) (good : History → Prop) : Prop :=
  C.unlockhashGet (.str (u.str C.H)) = .error .explorerNoContent ∨ ∃ h, C.unlockhashGet (.str (u.str C.H)) = .ok h ∧ good h

/-- The explorer's answer about an address: the entries of its transactions, the multi-signature addresses it owns together with others, and its
registration for ERC20 withdrawals, if there is one. -/
structure AnswerAbout (L : IpLib) (H : Bytes → Bytes) (fields : List (String × Json)) (entries : List Json) (shared : List UnlockHash)
    (registration : Option Erc20Info) : Prop where
  type : jget fields "hashtype" = some (.str "unlockhash".toList)
  listed : jget fields "transactions" = some (.arr entries)
  readable : ∀ e ∈ entries, ∃ t, parseTx L H e = .ok t
  mentioned : jget fields "multisigaddresses" = some (.arr (shared.map fun u => .str (u.str H))) ∨ shared = [] ∧ jget fields "multisigaddresses" = none
  owned : ∀ u ∈ shared, CanonicalAddress u ∧ u.type = 3
  registered : jget fields "erc20info" = none ∧ registration = none ∨
    ∃ j i, jget fields "erc20info" = some j ∧ Erc20Info.ofJson H j = .ok i ∧ registration = some i

/-- The `k`-th miner payout: its id as listed in the block, value and address as in the raw block. -/
def ListsPayout (H : Bytes → Bytes) (b raw : Json) (k : Nat) (p : Payout) : Prop :=
  ∃ i mp v a, EntryField b "minerpayoutids" k i ∧ hashOfJson i = .ok p.id ∧ EntryField raw "minerpayouts" k mp ∧
    mp.idx "value" = .ok v ∧ currencyOfJson v = .ok p.value ∧ mp.idx "unlockhash" = .ok a ∧ UnlockHash.fromJson H a = .ok p.address

/-- The block as the explorer describes it. -/
structure BlockFor (L : IpLib) (H : Bytes → Bytes) (b : Json) (k : Block) : Prop where
  raw : ∃ raw par t, b.idx "rawblock" = .ok raw ∧ raw.idx "parentid" = .ok par ∧ hashOfJson par = .ok k.parent ∧
    raw.idx "timestamp" = .ok t ∧ t.toInt = .ok k.time ∧
    (∃ l, raw.listField "minerpayouts" = .ok l ∧ k.payouts.length = l.length) ∧ ∀ (i : Nat) p, k.payouts[i]? = some p → ListsPayout H b raw i p
  id : ∃ i, b.idx "blockid" = .ok i ∧ hashOfJson i = .ok k.id
  height : ∃ n, b.idx "height" = .ok n ∧ n.toInt = .ok k.height
  txs : ∃ ts l, b.idx "transactions" = .ok ts ∧ ts.iter = .ok l ∧ k.txs.length = l.length ∧
    ∀ (i : Nat) t, k.txs[i]? = some t → ∃ e, l[i]? = some e ∧ parseTx L H e = .ok t

/-- Where a 3Bot is looked up. -/
inductive LooksUp : BotArg → Str → Prop
  | id (i : Int) : LooksUp (.int i) ("/explorer/3bot/".toList ++ intStr i)
  | name (n : BotName) : LooksUp (.name n) ("/explorer/whois/3bot/".toList ++ n.value)
  | key (k : PublicKey) : LooksUp (.key k) ("/explorer/3bot/".toList ++ k.str)

/-- A list of texts in a JSON object. -/
def texts (l : List Str) : Json := .arr (l.map .str)

end TF.Spec
