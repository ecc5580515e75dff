import Verif.Spec.Payment
import Verif.Model.WalletOps
/-! # What the 3Bot, minting and registration operations are asked for -/
namespace TF.Spec

/-- `l` is what the given items (none, if `None` is given) become, in order; none is refused and there are at most `max`. -/
def Items {α β : Type} (max : Nat) (mk : α → Res β) (given : Option (List α)) (l : List β) : Prop :=
  (given.getD []).mapM mk = .ok l ∧ l.length ≤ max

/-- Which key a new 3Bot or address registration uses: the one of the wallet's address with the given index, or, without index, a key the
wallet did not have. -/
def KeyAtIndex (W : World) (index : Option Int) (k : PublicKey) : Prop :=
  match index with
  | some i => ∃ addrs a, W.addresses = .ok addrs ∧ 0 ≤ i ∧ addrs[i.toNat]? = some a ∧ W.keys.get? a = some k
  | none => ∀ p ∈ W.keys.pairs, ¬ HasAddress W.H k p.1

/-- Which key an ERC20 registration uses. -/
def KeyNamed (W : World) (which : WhichKey) (k : PublicKey) : Prop :=
  match which with
  | .new => KeyAtIndex W none k
  | .index i => KeyAtIndex W (some i) k
  | .str s => W.keys.get? s = some k
  | .uh u => W.keys.get? (u.str W.H) = some k
  | .other => False

/-- The 3Bot `id` has the key `k` and is active: its record expires after the time of the last block. -/
def ActiveBot (W : World) (id : Int) (k : PublicKey) : Prop := ∃ exp now, W.record id = .ok (k, exp) ∧ W.chainTime = .ok now ∧ now < exp

/-! ## Signing foreign transactions -/

/-- The output a coin input spends, as far as the wallet knows: an output it can spend with that id, else the one known to the input. -/
def SpendsKnown (w : Wallets) (ci : CoinInput) (co : CoinOutput) : Prop :=
  (co ∈ walletsSpendable w ∧ co.id = ci.parentId) ∨ ((∀ co' ∈ walletsSpendable w, co'.id ≠ ci.parentId) ∧ ci.parent = some co)

/-- Whatever signatures the transaction carries already are genuine. -/
structure GenuineSoFar (W : World) (w : Wallets) (t : Tx) : Prop where
  coins : ∀ l i ci co, t.coinInputs = some l → l[i]? = some ci → SpendsKnown w ci co → Sound W t (.coin i) co.condition ci.fulfillment
  selfs : ∀ p ∈ selfSignatures t, ∀ s, p.2.2 = some s → ∃ k, p.2.1 = some k ∧ SelfSigned W t p.1 k s
  mint : ∀ p c f, mintPart t = some (p, some f) → W.mintCondition = .ok c → Sound W t .mint c f

/-- What is in a transaction apart from signatures, the ids filled in in its own outputs, and what is remembered about the outputs and
the mint condition it refers to. This is what is sent to the network, up to signatures. -/
def essence (t : Tx) : Tx :=
  let forget (ci : CoinInput) : CoinInput := { ci with parent := none }
  match bare t with
  | .v1 t => .v1 { t with coinInputs := t.coinInputs.map forget }
  | .v128 t => .v128 { t with parent := none }
  | .v129 t => .v129 { t with parent := none }
  | .v144 t => .v144 { t with coinInputs := t.coinInputs.map forget }
  | .v145 t => .v145 { t with coinInputs := t.coinInputs.map forget }
  | .v146 t => .v146 { t with coinInputs := t.coinInputs.map (·.map forget) }
  | .v208 t => .v208 { t with coinInputs := t.coinInputs.map forget }
  | .v209 t => .v209 t
  | .v210 t => .v210 { t with coinInputs := t.coinInputs.map (·.map forget) }

/-- The signatures in a fulfillment. -/
def sigsIn : Fulfillment → List Signature
  | .single _ s => s.toList
  | .swap _ s _ => s.toList
  | .multi ps => ps.map (·.sig)

/-- The signatures a transaction carries at a place. -/
def carried (t : Tx) : SigTarget → List Signature
  | .coin i => match (t.coinInputs.getD [])[i]? with
    | some ci => sigsIn ci.fulfillment
    | none => []
  | .stake i => match t.stakeInputs[i]? with
    | some ci => sigsIn ci.fulfillment
    | none => []
  | .mint => match mintPart t with
    | some (_, some f) => sigsIn f
    | _ => []
  | .self spec => (selfSignatures t).filterMap fun p => if p.1 = spec then p.2.2 else none

/-- `k` is one of the keys of the wallet. -/
def OwnKey (W : World) (k : PublicKey) : Prop := ∃ a, (a, k) ∈ W.keys.pairs

/-- The operation handed the transaction to the network or returned it. -/
def Yields (o : Outcome (Tx × Bool × Bool)) (t : Tx) : Prop := t ∈ o.posted ∨ ∃ a b, o.result = .ok (t, a, b)

/-- What signing (and, if asked for, submitting) the transaction `t` may do: at most one transaction is submitted, and only if asked for;
whatever is submitted or returned is the given transaction apart from signatures; the signatures it carries are those it had and genuine
ones made with keys of the wallet; the operation tells truly whether it submitted and whether it signed. -/
structure OnlySigns (W : World) (t : Tx) (submit : Bool) (o : Outcome (Tx × Bool × Bool)) : Prop where
  once : o.posted.length ≤ 1
  ifAsked : o.posted ≠ [] → submit = true
  same : ∀ t', Yields o t' → essence t' = essence t
  own : ∀ t', Yields o t' → ∀ tgt, ∀ s ∈ carried t' tgt, s ∈ carried t tgt ∨ ∃ k, OwnKey W k ∧ OwnSig W t' tgt k s
  told : ∀ t' a b, o.result = .ok (t', a, b) → (b = true ↔ o.posted ≠ [])
  unsigned : ∀ t' b, o.result = .ok (t', false, b) → ∀ tgt, carried t' tgt = carried t tgt
  signed : ∀ t' b, o.result = .ok (t', true, b) → ∃ tgt k s, s ∈ carried t' tgt ∧ OwnKey W k ∧ OwnSig W t' tgt k s

/-! ## Submitted payments -/

/-- Whatever can be spent for the given source belongs to a personal address the wallet has the key of (and is not the address of the
all-zero key, which stands for a missing key). -/
def AllOwn (W : World) (w : Wallets) (src : Source) : Prop :=
  ∀ co, Eligible W.H w src co → ∃ u, co.condition.unwrap = .unlockHash u ∧ W.keys.get? (u.str W.H) ≠ none ∧ ¬ HasAddress W.H .default (u.str W.H)

/-- With how many zero bytes the specifier "coin output" is filled up: to 16 bytes, but to 15 for legacy transactions. -/
def specifierFill (t : Tx) : Nat :=
  match t with
  | .v1 v => if v.legacy then 4 else 5
  | _ => 5

/-- The id by which the network knows the `i`-th coin output of a transaction: the blake2b-256 digest of the filled up "coin output",
what the transaction id is made of, and the index in 8 bytes. -/
def NetworkOutputId (H : Bytes → Bytes) (t : Tx) (i : Nat) (id : Hash) : Prop :=
  ∃ b, t.idInput H = .ok b ∧ id.value = H (utf8 "coin output".toList ++ List.replicate (specifierFill t) 0 ++ b ++ toBytesLE 8 i)

/-- The address is one of the wallet's: a personal one or one of a multi-signature wallet in its balance. -/
def OwnAddress (W : World) (a : Str) : Prop := (∃ addrs, W.addresses = .ok addrs ∧ a ∈ addrs) ∨ ∃ w m, W.balance = .ok w ∧ (a, m) ∈ w.wallets

/-- When the operation submitted a transaction, each output for an address of the wallet in the returned transaction has the id by which the
network knows this output of the submitted transaction. -/
def IdsFilled (W : World) (o : Outcome (Tx × Bool)) : Prop :=
  ∀ t, o.result = .ok (t, true) → ∃ t', o.posted = [t'] ∧ ∀ i co u, t.coinOutputs[i]? = some co →
    co.condition.unlockhash W.H = .ok u → OwnAddress W (u.str W.H) → NetworkOutputId W.H t' i co.id

/-- The outputs a submitted transaction creates and those its inputs spend. -/
inductive Concerns (t : Tx) (co : CoinOutput) : Prop
  | creates (h : co ∈ t.coinOutputs)
  | spends (l : List CoinInput) (ci : CoinInput) (hl : t.coinInputs = some l) (h : ci ∈ l) (hp : ci.parentOutput = co)

/-- What can make an operation raise although it has submitted the transaction `t`. -/
inductive Trouble (W : World) (w : Wallets) (t : Tx) : Prop
  /-- The explorers do not confirm the submission. -/
  | put (e : Err) (h : W.put t = .error e)
  /-- The addresses of the wallet cannot be determined. -/
  | addresses (e : Err) (h : W.addresses = .error e)
  /-- The id of the transaction cannot be computed. -/
  | noId (e : Err) (h : t.idInput W.H = .error e)
  | tooMany (h : 2^64 ≤ t.coinOutputs.length)
  /-- An output has no address. -/
  | noAddress (co : CoinOutput) (e : Err) (hc : Concerns t co) (h : co.condition.unlockhash W.H = .error e)
  /-- An output uses the address of a multi-signature wallet as if it were the address of a single key. -/
  | notMulti (co : CoinOutput) (u : UnlockHash) (hc : Concerns t co) (hu : co.condition.unlockhash W.H = .ok u) (h3 : u.type = 3)
      (h : ∀ os n, co.condition.unwrap ≠ .multiSig os n)
  /-- An output belongs to a multi-signature wallet the balance does not contain. -/
  | unknownMulti (co : CoinOutput) (u : UnlockHash) (hc : Concerns t co) (hu : co.condition.unlockhash W.H = .ok u) (h3 : u.type = 3)
      (h : ∀ m, (u.str W.H, m) ∉ w.wallets)

/-- If the operation raises, it has submitted nothing, unless something went wrong after the submission. -/
def RaisesBefore {α : Type} (W : World) (o : Outcome α) : Prop :=
  ∀ e, o.result = .error e → o.posted = [] ∨ ∃ t w, o.posted = [t] ∧ W.balance = .ok w ∧ Trouble W w t

/-- The operation spends outputs only that the balance offered when it began. -/
def SpendsOffered (W : World) (o : Outcome (Tx × Bool)) : Prop :=
  ∀ t, Produces o t → ∀ l, t.coinInputs = some l → ∀ ci ∈ l, ∃ w co, W.balance = .ok w ∧ co ∈ walletsSpendable w ∧ ci.parentId = co.id

/-- Two transactions spend a common output. -/
def DoubleSpend (t t' : Tx) : Prop := ∃ l l' ci ci', t.coinInputs = some l ∧ t'.coinInputs = some l' ∧ ci ∈ l ∧ ci' ∈ l' ∧ ci.parentId = ci'.parentId

end TF.Spec
