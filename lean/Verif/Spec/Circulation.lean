import Verif.Spec.Chain
/-! # Coins in circulation, and a chain that grows -/
namespace TF.Spec

/-- The unspent outputs of the chain are worth `n` smallest units altogether. (Outputs of ERC20 withdrawals, described without ids, are left out.) -/
def Circulating (S : ChainState) (n : Nat) : Prop :=
  ∃ l : List CoinOutput, l.Nodup ∧ (∀ co, co ∈ l ↔ UnspentOn S co ∧ Identified co) ∧ total l = n

/-- No two transactions of the chain spend the same output. -/
def OnceSpent (S : ChainState) : Prop := S.txs.Pairwise fun t t' => ∀ id, Spends t.tx id → ¬ Spends t'.tx id

/-- What an output pays and to whom. -/
def pays (co : CoinOutput) : Nat × Condition := (amount co.value, co.condition)

/-- The network takes the transaction into the chain: it is listed with the same outputs and the same inputs; its outputs get ids that appeared nowhere
before; inputs are described with the conditions of what they spend. Height and time may advance. -/
structure Accepts (S : ChainState) (t : Tx) (S' : ChainState) : Prop where
  entry : ∃ e : ChainTx, S'.txs = S.txs ++ [e] ∧ e.tx.coinOutputs.map pays = t.coinOutputs.map pays ∧
    e.tx.coinInputs.map (List.map CoinInput.parentId) = t.coinInputs.map (List.map CoinInput.parentId) ∧
    (∀ co ∈ e.tx.coinOutputs, Identified co ∧ GoodCurrency co.value ∧ ¬ SpentOn S co.id ∧ ∀ co', CreatedOn S co' → co'.id ≠ co.id) ∧
    (e.tx.coinOutputs.map CoinOutput.id).Nodup ∧
    ∀ l, e.tx.coinInputs = some l → ∀ ci ∈ l, ∀ co, CreatedOn S co → Identified co → ci.parentId = co.id → ci.parentOutput.condition = co.condition
  height : S.height ≤ S'.height
  time : S.time ≤ S'.time

/-- A wallet that learns from truthful explorers about the present chain, with the restrictions of C120. -/
structure Informed (W : World) (C : Client) (own : List UnlockHash) (S : ChainState) : Prop where
  chain : OnChain W C own S
  mints : NoMinting C own
  withdrawals : NoWithdrawals C own
  fee : GoodCurrency W.fee
  positive : 0 < amount W.fee

/-- One thing that happens: some wallet pays, creates or claims a swap contract, and the network takes what it submits; or time passes. The lists give the
wallet and the addresses of the wallet that pays, the number what is paid to others than outputs: the miner fee and what is charged. -/
inductive Step (S S' : ChainState) : List World → List UnlockHash → Nat → Prop
  | paying (W : World) (C : Client) (own : List UnlockHash) (informed : Informed W C own S) (src : Source) (refund : Recipient) (o : Outcome (Tx × Bool))
      (call : Paying W src refund o) (t : Tx) (posted : t ∈ o.posted) (taken : Accepts S t S') : Step S S' [W] own (amount W.fee + charged t)
  | initiating (W : SwapWorld) (C : Client) (own : List UnlockHash) (informed : Informed W.toWorld C own S) (secret : Bytes) (r : Recipient) (amt : CVal)
      (legal : ∀ c, amt = .cur c → GoodCurrency c) (time : LockVal) (src : Source) (refund : Recipient) (data : DataArg) (submit : Bool) (t : Tx)
      (posted : t ∈ (W.initiate secret r amt time src refund data submit).posted) (taken : Accepts S t S') : Step S S' [W.toWorld] own (amount W.fee)
  | participating (W : SwapWorld) (C : Client) (own : List UnlockHash) (informed : Informed W.toWorld C own S) (hash : BVal) (r : Recipient) (amt : CVal)
      (legal : ∀ c, amt = .cur c → GoodCurrency c) (time : LockVal) (src : Source) (refund : Recipient) (data : DataArg) (submit : Bool) (t : Tx)
      (posted : t ∈ (W.participate r amt hash time src refund data submit).posted) (taken : Accepts S t S') : Step S S' [W.toWorld] own (amount W.fee)
  | redeeming (W : SwapWorld) (C : Client) (informed : SwapOnChain W C S) (sha : Digest32 W.sha) (hash : Digest32 W.H) (keys : OwnsKeys W.toWorld)
      (fee : GoodCurrency W.fee) (id secret : BVal) (names : OutputIdArg id) (full : ∀ b, Gives secret b → b.length = 32)
      (worth : ∀ co, W.output id = .ok (co, false) → amount W.fee < amount co.value) (data : DataArg) (t : Tx)
      (posted : t ∈ (W.redeem id secret data).posted) (taken : Accepts S t S') : Step S S' [W.toWorld] [] (amount W.fee)
  | refunding (W : SwapWorld) (C : Client) (informed : SwapOnChain W C S) (hash : Digest32 W.H) (keys : OwnsKeys W.toWorld)
      (fee : GoodCurrency W.fee) (id : BVal) (names : OutputIdArg id)
      (worth : ∀ co, W.output id = .ok (co, false) → amount W.fee < amount co.value)
      (other : ∀ c, Reported W id c → W.keys.get? (c.receiver.str W.H) = none) (data : DataArg) (t : Tx)
      (posted : t ∈ (W.refund id data).posted) (taken : Accepts S t S') : Step S S' [W.toWorld] [] (amount W.fee)
  | waiting (same : S'.txs = S.txs) (height : S.height ≤ S'.height) (time : S.time ≤ S'.time) : Step S S' [] [] 0

/-- Anything that happens in any order, with all wallets that act, the addresses of those that pay and with what is paid altogether. -/
inductive Runs (S : ChainState) : ChainState → List World → List UnlockHash → Nat → Prop
  | start : Runs S S [] [] 0
  | more (S' S'' : ChainState) (acting acts : List World) (who own : List UnlockHash) (n m : Nat) (before : Runs S S' acting who n) (step : Step S' S'' acts own m) :
      Runs S S'' (acting ++ acts) (who ++ own) (n + m)

end TF.Spec
