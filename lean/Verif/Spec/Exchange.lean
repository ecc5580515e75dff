import Verif.Spec.Release
import Verif.Spec.Live
/-! # Swaps from beginning to end -/
namespace TF.Spec

/-- The first output of the transaction that the chain took last. -/
def FirstOutput (S : ChainState) (co : CoinOutput) : Prop := ∃ e rest, S.txs.getLast? = some e ∧ e.tx.coinOutputs = co :: rest

/-- The secret in the one input of a transaction that claims a contract. -/
def Reveals (t : Tx) (s : Bytes) : Prop := ∃ ci k sig, t.coinInputs = some [ci] ∧ ci.fulfillment = .swap k sig (some s)

/-- The wallet `W'` learns from truthful explorers about the chain, has its keys in order, and computes digests and fees as `W` does. -/
structure Claimant (W W' : SwapWorld) (C : Client) (S : ChainState) : Prop where
  chain : SwapOnChain W' C S
  digests : Digest32 W'.sha ∧ Digest32 W'.H
  same : W'.sha = W.sha ∧ W'.H = W.H ∧ amount W'.fee = amount W.fee
  keys : GoodKeys W'.toWorld ∧ OwnsKeys W'.toWorld ∧ Readable W'.toWorld
  fee : GoodCurrency W'.fee
  clock : ∃ now, W'.chainTime = .ok now

/-- An address that can be part of a contract: at most 32 bytes, and not the address of the missing key. -/
def GoodParty (H : Bytes → Bytes) (u : UnlockHash) : Prop := HashFits u.hash ∧ ¬ HasAddress H .default (u.str H)

/-- The contract can be taken out by whoever is entitled, from any chain that lists it as unspent: by a claimant with the key of the receiver and a secret
of 32 bytes that has the digest `h`, and, once the time is over, by one with the key of the sender that lacks the key of the receiver. -/
def Claimable (W : SwapWorld) (co : CoinOutput) (sender receiver : UnlockHash) (h : Bytes) (since : Int) : Prop :=
  ∀ W' C' S', Claimant W W' C' S' → ListedAlone C' co → ∀ id data d, Hash.new id = .ok co.id → payload data = some d → d.length ≤ 83 →
    (∀ secret s, Gives secret s → s.length = 32 → W.sha s = h → Holds W'.toWorld receiver →
      ∃ t, (W'.redeem id secret data).posted = [t] ∧ Releases W' S' co receiver t) ∧
    (since ≤ S'.time → Holds W'.toWorld sender → W'.keys.get? (receiver.str W.H) = none →
      ∃ t, (W'.refund id data).posted = [t] ∧ Releases W' S' co sender t)

/-- What the call returned, having submitted it, is the contract the chain holds once it took the transaction; it is as asked for, and claimable. -/
structure Held (W : SwapWorld) (S' : ChainState) (r : Recipient) (amt : CVal) (h : Bytes) (time : LockVal) (c : Contract) (co : CoinOutput) : Prop where
  first : FirstOutput S' co
  unspent : UnspentOn S' co ∧ Identified co
  id : co.id = c.id
  holds : co.condition = .atomicSwap c.sender c.receiver (some h) c.lockTime
  worth : ∃ a, Currency.set amt = .ok a ∧ amount co.value = amount a
  party : PartyOf W.H r c.receiver
  time : RefundAt time c.lockTime
  claimable : co.id.str ≠ List.replicate 64 '0' → GoodParty W.H c.sender → GoodParty W.H c.receiver → Claimable W co c.sender c.receiver h c.lockTime

end TF.Spec
