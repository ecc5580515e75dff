import Verif.Spec.WalletBalance
import Verif.Spec.Ops
import Verif.Spec.Swap
import Verif.Spec.Address
/-! # The chain, and what the network asks of a transaction -/
namespace TF.Spec

/-- The state of the chain: the transactions in its blocks and in the pool, as explorers describe them, and height and time of its last block. -/
structure ChainState where
  txs : List ChainTx
  height : Int
  time : Int

/-- A transaction of the chain creates this output. -/
def CreatedOn (S : ChainState) (co : CoinOutput) : Prop := ∃ t ∈ S.txs, co ∈ t.tx.coinOutputs
/-- A transaction of the chain spends the output with this id. -/
def SpentOn (S : ChainState) (id : Hash) : Prop := ∃ t ∈ S.txs, Spends t.tx id
/-- The output exists and is not spent. -/
def UnspentOn (S : ChainState) (co : CoinOutput) : Prop := CreatedOn S co ∧ ¬ SpentOn S co.id

/-- The output is described with its id. (The description of an ERC20 withdrawal lacks the id of the output it creates.) -/
def Identified (co : CoinOutput) : Prop := co.id.value.length = 32

/-- What any chain is like: the descriptions of its transactions, ERC20 withdrawals apart, give the ids of the outputs; an id stands for one output of
one transaction; an input is described together with the condition of the output it spends; amounts are legal, and whatever is unspent amounts to
less than 10^28 smallest units; no transaction spends an output of its own; it has a first block. -/
structure LawfulChain (S : ChainState) : Prop where
  full : ∀ t ∈ S.txs, ¬ IsWithdrawal t.tx → ∀ co ∈ t.tx.coinOutputs, Identified co
  ids : ∀ t ∈ S.txs, ∀ t' ∈ S.txs, ∀ co ∈ t.tx.coinOutputs, ∀ co' ∈ t'.tx.coinOutputs, Identified co → co.id = co'.id → t = t' ∧ co = co'
  parents : ∀ t ∈ S.txs, ∀ l, t.tx.coinInputs = some l → ∀ ci ∈ l, ∀ co, CreatedOn S co → Identified co → ci.parentId = co.id →
    ci.parentOutput.condition = co.condition
  amounts : ∀ co, CreatedOn S co → GoodCurrency co.value
  supply : ∀ l : List CoinOutput, l.Nodup → (∀ co ∈ l, UnspentOn S co ∧ Identified co) → total l < 10 ^ 28
  later : ∀ t ∈ S.txs, ∀ co ∈ t.tx.coinOutputs, Identified co → ¬ Spends t.tx co.id
  started : 0 < S.height ∧ 0 < S.time

/-- The transaction creates or spends an output of the address with text `a`. -/
def ConcernsAt (H : Bytes → Bytes) (S : ChainState) (a : Str) (t : ChainTx) : Prop :=
  (∃ co ∈ t.tx.coinOutputs, AtAddress H a co) ∨ ∃ co, CreatedOn S co ∧ AtAddress H a co ∧ Spends t.tx co.id

/-- The explorers tell the truth: the history they give of an address consists of transactions of the chain, among them all that create or spend an
output of the address, and the multi-signature addresses they mention are well-formed. -/
def Truthful (C : Client) (S : ChainState) : Prop :=
  ∀ target h, C.unlockhashGet target = .ok h →
    (∀ t ∈ h.txs, t ∈ S.txs) ∧ (∀ t ∈ S.txs, ConcernsAt C.H S (h.address.str C.H) t → t ∈ h.txs) ∧ ∀ u ∈ h.multisigs, CanonicalAddress u

/-- The wallet with these own addresses learns its balance from the client `C`, whose explorers know the chain `S`. -/
structure OnChain (W : World) (C : Client) (own : List UnlockHash) (S : ChainState) : Prop where
  hash : C.H = W.H
  digest : Digest32 W.H
  personal : ∀ u ∈ own, u.type = 1 ∧ CanonicalAddress u
  balance : ∀ w, W.balance = .ok w → ∃ info : ChainInfo, info.height = S.height ∧ info.time = S.time ∧
    C.walletBalance (.ok info) (own.map fun u => u.str C.H) = .ok (.wallets w)
  lawful : LawfulChain S
  truthful : Truthful C S

/-- No multi-signature address of the wallet ever took part in the definition of a mint condition. -/
def NoMinting (C : Client) (own : List UnlockHash) : Prop := ∀ h, SharedHistory C own h → ∀ t ∈ h.txs, ¬ IsMintDefinition t.tx

/-- No address of the wallet ever took part in an ERC20 withdrawal. -/
def NoWithdrawals (C : Client) (own : List UnlockHash) : Prop :=
  ∀ h, OwnHistory C own h ∨ SharedHistory C own h → ∀ t ∈ h.txs, ¬ IsWithdrawal t.tx

/-- The time lock of an output, if any, has passed: a number below 500 million is a height, others are times. -/
def LockPassed (S : ChainState) : Condition → Prop
  | .lockTime v _ => if v < 500000000 then v ≤ S.height else v ≤ S.time
  | _ => True

/-- The output is not held under an atomic swap contract (those take more than a signature to spend). -/
def NoSwap (c : Condition) : Prop := ∀ a b hs l, c.unwrap ≠ .atomicSwap a b hs l

/-- The price of months of a 3Bot: 10 TFT each, 30% off from 12 months, 50% off from 24 months. -/
def botMonths (m : Nat) : Nat := if m < 12 then 10 * 10^9 * m else if m < 24 then 7 * 10^9 * m else 5 * 10^9 * m

/-- What a transaction has to pay besides its coin outputs and the miner fee: the coins it converts, the fees of 3Bots and registrations. -/
def charged : Tx → Nat
  | .v144 t => 90 * 10^9 + botMonths t.months.toNat + 50 * 10^9 * (t.names.length - 1)
  | .v145 t => botMonths t.months.toNat + (if t.addrsAdd = [] ∧ t.addrsRemove = [] then 0 else 20 * 10^9) + 50 * 10^9 * t.namesAdd.length
  | .v146 t => 50 * 10^9 * t.names.length
  | .v208 t => amount t.value
  | .v210 _ => 10 * 10^9
  | _ => 0

/-- What the network asks of a transaction that spends coins. Its inputs name different outputs, each of which exists on the chain, is not spent, is
no longer time-locked, is under no atomic swap contract, and has a condition that the input fulfills; what they are worth is what the transaction pays, including the one miner fee of the
network; each of its outputs is worth something; the signatures it carries itself are all there; its data is at most 83 bytes long. -/
structure ValidOn (W : World) (S : ChainState) (t : Tx) : Prop where
  inputs : ∃ l : List CoinInput, ∃ spent : List CoinOutput, t.coinInputs = some l ∧ l ≠ [] ∧ (l.map CoinInput.parentId).Nodup ∧
    l.map CoinInput.parentId = spent.map CoinOutput.id ∧ (∀ co ∈ spent, Identified co ∧ UnspentOn S co ∧ LockPassed S co.condition ∧ NoSwap co.condition) ∧
    (∀ i ci co, l[i]? = some ci → spent[i]? = some co → Unlocks W t (.coin i) co.condition ci.fulfillment) ∧
    total spent = total t.coinOutputs + amount W.fee + charged t
  fee : t.minerFees.map amount = [amount W.fee]
  outputs : ∀ co ∈ t.coinOutputs, 0 < amount co.value
  signed : ExtensionSigned W t
  data : ∀ v, t = .v1 v → v.data.length ≤ 83

/-- What the network asks of a transaction that claims an atomic swap contract. Its one input names an unspent output of the chain that holds a contract,
and is signed: by the receiver, giving a secret of 32 bytes with the right digest, or by the sender, giving none, once the contract can be refunded; the contract is
worth what the transaction pays, including the one miner fee; each output is worth something; its data is at most 83 bytes long. -/
structure ClaimOn (W : SwapWorld) (S : ChainState) (t : Tx) : Prop where
  input : ∃ ci co sender receiver hash since k sig secret, t.coinInputs = some [ci] ∧ ci.parentId = co.id ∧ Identified co ∧ UnspentOn S co ∧
    co.condition = .atomicSwap sender receiver hash since ∧ ci.fulfillment = .swap k (some sig) secret ∧ OwnSig W.toWorld t (.coin 0) k sig ∧
    ((∃ b, secret = some b ∧ b.length = 32 ∧ hash = some (W.sha b) ∧ HasAddress W.H k (receiver.str W.H)) ∨
      (secret = none ∧ since ≤ S.time ∧ HasAddress W.H k (sender.str W.H))) ∧
    amount co.value = total t.coinOutputs + amount W.fee
  fee : t.minerFees.map amount = [amount W.fee]
  outputs : ∀ co ∈ t.coinOutputs, 0 < amount co.value
  data : ∀ v, t = .v1 v → v.data.length ≤ 83

/-- The wallet asks the client `C` for outputs and the time of the chain `S`, and the explorers tell the truth about outputs: asked for one, they list transactions of the
chain, among them each that spends it. -/
structure SwapOnChain (W : SwapWorld) (C : Client) (S : ChainState) : Prop where
  hash : C.H = W.H
  output : ∀ id, W.output id = (C.coinOutputGet id).map fun x => (x.1, x.2.2.isSome)
  time : ∀ now, W.chainTime = .ok now → now = S.time
  lawful : LawfulChain S
  truthful : ∀ (id : Hash) (resp : Json) (l : List Json), C.get ("/explorer/hashes/".toList ++ id.str) = .ok resp → Entries resp "coinoutputid" l →
    (∀ e ∈ l, ∀ t, parseTx C.L C.H e = .ok t → t ∈ S.txs) ∧ ∀ t ∈ S.txs, Spends t.tx id → ∃ e ∈ l, parseTx C.L C.H e = .ok t

/-- The argument is the identifier of an output (not one of zeros only, which no output has). -/
def OutputIdArg (id : BVal) : Prop := ∃ h : Hash, Hash.new id = .ok h ∧ h.str ≠ List.replicate 64 '0'

/-- The calls by which a wallet pays, with any arguments (an amount given as a `Currency` is a legal amount). -/
inductive Paying (W : World) (src : Source) (refund : Recipient) : Outcome (Tx × Bool) → Prop
  | coins (r : Recipient) (amt : CVal) (lock : LockVal) (data : DataArg) (legal : ∀ c, amt = .cur c → GoodCurrency c) :
      Paying W src refund (W.coinsSend r amt src refund lock data)
  | builder (adds : List (Recipient × CVal × LockVal)) (data : DataArg) (legal : ∀ p ∈ adds, ∀ c, p.2.1 = .cur c → GoodCurrency c) :
      Paying W src refund (W.builderSend (adds.foldl (fun b p => (W.builderAdd b p.1 p.2.1 p.2.2).1) (some [])) src refund data).2
  | erc20 (addr : BVal) (amt : CVal) (legal : ∀ c, amt = .cur c → GoodCurrency c) : Paying W src refund (W.erc20Send addr amt src refund)
  | recordNew (L : IpLib) (months : Int) (names : Option (List NameArg)) (addresses : Option (List NetArg)) (keyIndex : Option Int) :
      Paying W src refund (W.recordNew L months names addresses keyIndex src refund)
  | recordUpdate (L : IpLib) (id months : Int) (namesAdd namesRemove : Option (List NameArg)) (addrsAdd addrsRemove : Option (List NetArg)) :
      Paying W src refund (W.recordUpdate L id months namesAdd namesRemove addrsAdd addrsRemove src refund)
  | nameTransfer (sender receiver : Int) (names : Option (List NameArg)) : Paying W src refund (W.nameTransfer sender receiver names src refund)
  | register (which : WhichKey) : Paying W src refund (W.addressRegister which src refund)

end TF.Spec
