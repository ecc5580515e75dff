import Verif.Spec.Swap
import Verif.Lemmas.Bare
import Verif.Lemmas.WalletSign
import Verif.Lemmas.Currency
import Verif.Props.Deliver
/-! # Atomic swaps (C64, C65, C88 …) -/
namespace TF.Props
open TF Spec

theorem gives_norm {v : BVal} {b : Bytes} : Gives v b ↔ v.norm .hex = .ok b ∧ (b = [] ∨ b.length = 32) := by
  cases v <;> simp [Gives, BVal.norm, StrEnc.fromStr]
  · exact Or.inl
  · rename_i s
    cases fromHex s <;> simp

theorem binNew_norm (v : BVal) : BinData.new v (some 32) .hex = (match v.norm .hex with
    | .error e => .error e
    | .ok x => if x = [] ∨ x.length = 32 then .ok ⟨x, some 32, .hex⟩ else .error .valueError) := by
  have h0 : BinData.new v (some 32) .hex = (do
      let b ← v.norm .hex
      if b.length ≠ 0 ∧ b.length ≠ 32 then throw .valueError else return ⟨b, some 32, .hex⟩) := by
    simp [BinData.new, BinData.set]
  rw [h0]
  cases v.norm .hex with
  | error e => rfl
  | ok x =>
    by_cases hx : x = [] ∨ x.length = 32
    · have : ¬ (x.length ≠ 0 ∧ x.length ≠ 32) := by rcases hx with rfl | hx <;> simp [*]
      simp only [bind, Except.bind, pure, Except.pure, if_neg this, if_pos hx]
    · have : x.length ≠ 0 ∧ x.length ≠ 32 := ⟨fun h => hx (.inl (List.length_eq_zero_iff.1 h)), fun h => hx (.inr h)⟩
      simp only [bind, Except.bind, throw, throwThe, MonadExceptOf.throw, if_pos this, if_neg hx]

theorem binNew32 {v : BVal} {d : BinData} : BinData.new v (some 32) .hex = .ok d ↔ Gives v d.value ∧ d.fixed = some 32 ∧ d.enc = .hex := by
  obtain ⟨b, f, e⟩ := d
  rw [binNew_norm, gives_norm]
  cases v.norm .hex with
  | error e => simp
  | ok x =>
    dsimp only
    split
    · rename_i hx
      simp only [Except.ok.injEq, BinData.mk.injEq]
      constructor
      · rintro ⟨rfl, rfl, rfl⟩; exact ⟨⟨rfl, hx⟩, rfl, rfl⟩
      · rintro ⟨⟨rfl, _⟩, rfl, rfl⟩; exact ⟨rfl, rfl, rfl⟩
    · rename_i hx
      simp only [reduceCtorEq, Except.ok.injEq, false_iff]
      rintro ⟨⟨rfl, h⟩, _⟩; exact hx h

theorem secretNew_ok {v : BVal} {b : Bytes} : secretNew v = .ok b ↔ Gives v b := by
  simp only [secretNew, bind, Except.bind, pure, Except.pure]
  cases h : BinData.new v (some 32) .hex with
  | error e =>
    simp only [reduceCtorEq, false_iff]
    intro hg
    have := (binNew32 (d := ⟨b, some 32, .hex⟩)).2 ⟨hg, rfl, rfl⟩
    rw [h] at this; cases this
  | ok d =>
    simp only [Except.ok.injEq]
    obtain ⟨h1, h2, h3⟩ := binNew32.1 h
    constructor
    · rintro rfl; exact h1
    · intro hg
      have := (binNew32 (d := ⟨b, some 32, .hex⟩)).2 ⟨hg, rfl, rfl⟩
      rw [h] at this; cases this; rfl

theorem secretHashNew_ok {v : BVal} {b : Bytes} : secretHashNew v = .ok b ↔ Gives v b := secretNew_ok

/-- **C64.** A contract accepts a secret exactly when the sha256 digest of the given bytes is the contract's secret hash. -/
theorem C64_verify_secret (sha : Bytes → Bytes) (hs : Digest32 sha) (c : Contract) (secret : BVal) :
    c.verifySecret sha secret = .ok true ↔ ∃ b, Gives secret b ∧ c.secretHash = some (sha b) := by
  simp only [Contract.verifySecret, bind, Except.bind]
  cases h : secretNew secret with
  | error e =>
    simp only [reduceCtorEq, false_iff]
    rintro ⟨b, hb, _⟩
    rw [secretNew_ok.2 hb] at h; cases h
  | ok b =>
    have hb := secretNew_ok.1 h
    have h2 : secretHashNew (.bytes (sha b)) = .ok (sha b) := secretHashNew_ok.2 ⟨rfl, .inr (hs b)⟩
    simp only [h2]
    have uniq : ∀ b', Gives secret b' → b' = b := fun b' h' => by
      have := secretNew_ok.2 h'; rw [h] at this; cases this; rfl
    cases hc : c.secretHash with
    | none =>
      simp [hashedSecretData, BinData.eq]
    | some x =>
      simp only [hashedSecretData, BinData.eq, ne_eq, not_true_eq_false, if_false, Except.ok.injEq, decide_eq_true_eq, Option.some.injEq]
      constructor
      · intro he; exact ⟨b, hb, of_decide_eq_true he⟩
      · rintro ⟨b', h1, h3⟩; rw [uniq b' h1] at h3; exact decide_eq_true h3

/-- **C64.** Otherwise, for a well-formed secret and a contract with a secret hash, it says no. -/
theorem C64_verify_secret_no (sha : Bytes → Bytes) (hs : Digest32 sha) (c : Contract) (secret : BVal) (b h : Bytes) (hb : Gives secret b)
    (hc : c.secretHash = some h) (hne : sha b ≠ h) : c.verifySecret sha secret = .ok false := by
  have h1 := secretNew_ok.2 hb
  have h2 : secretHashNew (.bytes (sha b)) = .ok (sha b) := secretHashNew_ok.2 ⟨rfl, .inr (hs b)⟩
  simp [Contract.verifySecret, bind, Except.bind, h1, h2, hc, hashedSecretData, BinData.eq, Ne.symm hne]

/-! ## Finding the contract -/

theorem fetch_ok {W : SwapWorld} {id : BVal} {u : Bool} {c : Contract} (h : W.fetch id u = .ok c) : Reported W id c ∧ c.unspent = u ∧ ∃ now, W.chainTime = .ok now := by
  unfold SwapWorld.fetch at h
  split at h
  · cases h
  · cases h
  · rename_i co spent hco
    simp only [bind, Except.bind] at h
    split at h
    · cases h
    · rename_i now hnow
      split at h
      · cases h
      · rename_i c' hc'
        unfold Contract.ofOutput at hc'
        split at hc'
        · rename_i s r hs t hc
          cases hc'
          cases spent with
          | true => simp [throw, throwThe, MonadExceptOf.throw] at h
          | false => simp [pure, Except.pure] at h; subst h; exact ⟨⟨co, hco, hc, rfl, rfl⟩, rfl, now, hnow⟩
        · cases hc'

theorem addressIn_true {H : Bytes → Bytes} {u : UnlockHash} : ∀ {l : List Str}, addressIn H u l = .ok true → ∃ a ∈ l, Names H a u := by
  intro l
  induction l with
  | nil => intro h; cases h
  | cons s l ih =>
    intro h
    simp only [addressIn, bind, Except.bind] at h
    split at h
    · cases h
    · rename_i v hv
      split at h
      · rename_i he
        refine ⟨s, by simp, ?_⟩
        unfold Names
        rw [hv]; obtain ⟨a, b⟩ := v; obtain ⟨a', b'⟩ := u; simp at he; simp [he]
      · obtain ⟨a, h1, h2⟩ := ih h; exact ⟨a, List.mem_cons_of_mem _ h1, h2⟩

theorem mayRedeem_ok {W : SwapWorld} (hs : Digest32 W.sha) {c : Contract} {secret : BVal} {x : Unit} (h : W.mayRedeem c secret = .ok x) :
    Opens W c secret ∧ Holds W.toWorld c.receiver := by
  simp only [SwapWorld.mayRedeem, bind, Except.bind] at h
  split at h
  · cases h
  · rename_i b hb
    cases b with
    | false => simp [throw, throwThe, MonadExceptOf.throw] at h
    | true =>
      simp only [Bool.not_true, Bool.false_eq_true, if_false] at h
      split at h
      · cases h
      · rename_i addrs ha
        split at h
        · cases h
        · rename_i b' hb'
          cases b' with
          | false => simp [throw, throwThe, MonadExceptOf.throw] at h
          | true => exact ⟨(C64_verify_secret W.sha hs c secret).1 hb, addrs, ha, addressIn_true hb'⟩

theorem mayRefund_ok {W : SwapWorld} {c : Contract} {x : Unit} (h : W.mayRefund c = .ok x) :
    (∃ now, W.chainTime = .ok now ∧ c.lockTime ≤ now) ∧ Holds W.toWorld c.sender := by
  simp only [SwapWorld.mayRefund, bind, Except.bind] at h
  split at h
  · cases h
  · rename_i now hnow
    split at h
    · cases h
    · rename_i hlt
      split at h
      · cases h
      · rename_i addrs ha
        split at h
        · cases h
        · rename_i b hb
          cases b with
          | false => simp [throw, throwThe, MonadExceptOf.throw] at h
          | true => exact ⟨⟨now, hnow, by omega⟩, addrs, ha, addressIn_true hb⟩

/-! ## Signing a claim -/

/-- A transaction with one input that spends a contract. -/
def spends (v : TxV1) (id : Hash) (co : CoinOutput) (secret : Option Bytes) (k : PublicKey) (sig : Option Signature) : Tx :=
  .v1 { v with coinInputs := [⟨id, .swap k sig secret, some co⟩] }

theorem signOne_spends {W : World} {v : TxV1} (hl : v.legacy = false) {id : Hash} {co : CoinOutput} {secret : Option Bytes} {k : PublicKey}
    {sig : Option Signature} {u : UnlockHash} {t' : Tx} {b : Bool} (h : W.signOne (spends v id co secret k sig) ⟨.coin 0, { owner := u }⟩ = .ok (t', b)) :
    (W.keys.get? (u.str W.H) = none ∧ t' = spends v id co secret k sig) ∨ ∃ pk s, W.keys.get? (u.str W.H) = some pk ∧ SignsFor W.H pk u ∧
      t' = spends v id co secret pk (some s) ∧ OwnSig W t' (.coin 0) pk s := by
  unfold World.signOne at h
  split at h
  · rename_i hn; cases h; exact .inl ⟨hn, rfl⟩
  · rename_i pk hpk
    right
    split at h
    · cases h
    · rename_i hsh hh
      unfold World.inputHash at hh
      simp only [bind, Except.bind] at hh
      cases hp : (spends v id co secret k sig).preimage W.H (.coin 0) pk with
      | error e => rw [hp] at hh; cases hh
      | ok pre =>
        rw [hp] at hh
        have hv := hashNew_bytes hh
        split at h
        · rename_i q t1 hq
          cases h
          unfold Request.fulfillCb at hq
          simp only [Bool.false_eq_true, if_false] at hq
          cases hu : pk.unlockhash W.H with
          | error e => rw [hu] at hq; simp at hq
          | ok a =>
            rw [hu] at hq
            simp only at hq
            split at hq
            · simp at hq
            · rename_i hown
              have hsf : SignsFor W.H pk u := by
                by_cases h0 : u.type = 0
                · exact .inl h0
                · refine .inr ⟨a, hu, ?_⟩
                  exact Classical.byContradiction fun hne => hown ⟨h0, fun e => hne e.symm⟩
              have hsame := sign_same W.H (spends v id co secret k sig) (by simp [spends, IsLegacy, hl]) (.coin 0) (.key pk) (.bytes (W.sign pk hsh.value))
              split at hq
              · simp at hq
              · rename_i t2 hs2
                simp only [Prod.mk.injEq, and_true] at hq
                rw [hs2] at hsame
                obtain ⟨-, rfl⟩ := hq
                simp only [spends, Tx.sign, modifyAt, List.getElem?_cons_zero, CoinInput.sign, Fulfillment.signatureAdd, setKey] at hs2
                cases hss : setSignature (.bytes (W.sign pk hsh.value)) with
                | error e => simp [hss] at hs2
                | ok so =>
                  obtain ⟨s, rfl, hsv⟩ := setSignature_bytes hss
                  simp [hss] at hs2
                  refine ⟨pk, s, hpk, hsf, hs2.symm, pre, ?_, ?_⟩
                  · rw [hsame.preimage]; exact hp
                  · rw [hsv, hv]
        · cases h

theorem default_address (H : Bytes → Bytes) : ∃ u, PublicKey.default.unlockhash H = .ok u := ⟨_, rfl⟩

theorem signAll_spends {W : World} {v : TxV1} (hl : v.legacy = false) {id : Hash} {co : CoinOutput} {secret : Option Bytes} {us : List UnlockHash} :
    ∀ {k : PublicKey} {sig : Option Signature} {t' : Tx} {n : Nat},
      W.signAll (us.map fun u => ⟨.coin 0, { owner := u }⟩) (spends v id co secret k sig) = .ok (t', n) → ∃ k' sig', t' = spends v id co secret k' sig' ∧
        ((k' = k ∧ sig' = sig ∧ ∀ u ∈ us, W.keys.get? (u.str W.H) = none) ∨ ∃ pre u post x, us = pre ++ u :: post ∧ W.keys.get? (u.str W.H) = some k' ∧
          (∀ w ∈ post, W.keys.get? (w.str W.H) = none) ∧ sig' = some x ∧ SignsFor W.H k' u ∧ OwnSig W t' (.coin 0) k' x) := by
  induction us with
  | nil => intro k sig t' n h; cases h; exact ⟨k, sig, rfl, .inl ⟨rfl, rfl, by simp⟩⟩
  | cons u us ih =>
    intro k sig t' n h
    simp only [List.map, World.signAll, bind, Except.bind] at h
    split at h
    · cases h
    · rename_i q hq
      obtain ⟨t1, b⟩ := q
      simp only at h
      split at h
      · cases h
      · rename_i q2 hq2
        obtain ⟨t2, m⟩ := q2
        cases h
        rcases signOne_spends hl hq with ⟨hn, rfl⟩ | ⟨pk, s, hg, hsf, rfl, hown⟩
        · obtain ⟨k', sig', h1, h2⟩ := ih hq2
          refine ⟨k', sig', h1, ?_⟩
          rcases h2 with ⟨rfl, rfl, h3⟩ | ⟨pre, w, post, x, h3, h4⟩
          · exact .inl ⟨rfl, rfl, by intro w hw; rcases List.mem_cons.1 hw with rfl | hw; exact hn; exact h3 w hw⟩
          · exact .inr ⟨u :: pre, w, post, x, by rw [h3]; rfl, h4⟩
        · obtain ⟨k', sig', h1, h2⟩ := ih hq2
          refine ⟨k', sig', h1, .inr ?_⟩
          rcases h2 with ⟨rfl, rfl, h3⟩ | ⟨pre, w, post, x, h3, h4⟩
          · refine ⟨[], u, us, s, rfl, hg, h3, rfl, hsf, ?_⟩
            subst h1; exact hown
          · exact ⟨u :: pre, w, post, x, by rw [h3]; rfl, h4⟩

/-- What signing a claim gives: the key that has signed last. -/
theorem signNew_spends {W : World} {v : TxV1} (hl : v.legacy = false) (hst : v.stakeInputs = []) {id : Hash} {co : CoinOutput} {s r : UnlockHash}
    {hs : Option Bytes} {lt : Int} (hco : co.condition = .atomicSwap s r hs lt) {secret : Option Bytes} {t : Tx}
    (h : W.signNew (spends v id co secret .default none) = .ok t) :
    ∃ k sig, t = spends v id co secret k sig ∧ (∀ x, sig = some x → OwnSig W t (.coin 0) k x ∧ (SignsFor W.H k s ∨ SignsFor W.H k r)) ∧
      (∀ pk, W.keys.get? (r.str W.H) = some pk → ¬ HasAddress W.H .default (r.str W.H) → k = pk ∧ SignsFor W.H pk r ∧ sig ≠ none) ∧
      (∀ pk, W.keys.get? (s.str W.H) = some pk → ¬ HasAddress W.H .default (s.str W.H) → W.keys.get? (r.str W.H) = none →
        k = pk ∧ SignsFor W.H pk s ∧ sig ≠ none) := by
  obtain ⟨d, hd⟩ := default_address W.H
  have hz' : HasAddress W.H .default (d.str W.H) := ⟨d, hd, rfl⟩
  have hreq : (spends v id co secret .default none).requests W.H = .ok
      (([s, r].filter fun u => u.str W.H != d.str W.H).map fun u => (⟨.coin 0, { owner := u }⟩ : TxRequest)) := by
    simp only [spends, Tx.requests, Tx.coinInputs, coinRequests, CoinInput.requests, Fulfillment.requests, hco, hd, bind, Except.bind, pure, Except.pure,
      Tx.stakeInputs, hst, stakeRequests, Tx.extraRequests]
    simp
  simp only [World.signNew, bind, Except.bind, hreq, pure, Except.pure] at h
  generalize hus : ([s, r].filter fun u => u.str W.H != d.str W.H) = us at h
  have hmem : ∀ u, u ∈ us ↔ (u = s ∨ u = r) ∧ u.str W.H ≠ d.str W.H := by intro u; rw [← hus]; simp
  have hne : ∀ u : UnlockHash, ¬ HasAddress W.H .default (u.str W.H) → u.str W.H ≠ d.str W.H := fun u hu he => hu (he ▸ hz')
  split at h
  · cases h
  · split at h
    · cases h
    · rename_i q hq
      obtain ⟨t1, n⟩ := q
      cases h
      obtain ⟨k, sig, h1, h2⟩ := signAll_spends hl hq
      refine ⟨k, sig, h1, ?_⟩
      rcases h2 with ⟨rfl, rfl, h3⟩ | ⟨pre, u, post, x, h3, hg, hpost, rfl, hsf, hown⟩
      · refine ⟨by simp, fun pk hpk hn => ?_, fun pk hpk hn _ => ?_⟩
        · have := h3 r ((hmem r).2 ⟨.inr rfl, hne r hn⟩); rw [hpk] at this; cases this
        · have := h3 s ((hmem s).2 ⟨.inl rfl, hne s hn⟩); rw [hpk] at this; cases this
      · have hu := (hmem u).1 (by rw [h3]; simp)
        refine ⟨fun y hy => ?_, fun pk hpk hn => ?_, fun pk hpk hn hr => ?_⟩
        · cases hy
          refine ⟨hown, ?_⟩
          rcases hu.1 with rfl | rfl
          · exact .inl hsf
          · exact .inr hsf
        · have hur : u = r := by
            have hrd := hne r hn
            have hlast : us.getLast? = some r := by rw [← hus]; simp [List.filter_cons, hrd]; split <;> simp
            rw [h3] at hlast
            cases post with
            | nil => simpa using hlast
            | cons w l =>
              have hm : r ∈ w :: l := by
                have : (pre ++ u :: w :: l).getLast? = (w :: l).getLast? := by simp [List.getLast?_append, List.getLast?_cons]
                rw [this] at hlast; exact List.mem_of_getLast? hlast
              have := hpost r hm; rw [hpk] at this; cases this
          subst hur
          rw [hpk] at hg; cases hg
          exact ⟨rfl, hsf, by simp⟩
        · rcases hu.1 with rfl | rfl
          · rw [hpk] at hg; cases hg; exact ⟨rfl, hsf, by simp⟩
          · rw [hr] at hg; cases hg

theorem setData_payload {d : DataArg} {b : Bytes} (h : setData d = .ok b) : payload d = some b := by
  cases d <;> simp only [setData, payload] at h ⊢ <;> first
    | (cases h; done)
    | (split at h <;> first | (cases h; done) | (cases h; rfl))
    | (cases h; rfl)

theorem claim_ok {W : SwapWorld} {c : Contract} {asSender : Bool} {secret : Option Bytes} {data : DataArg} {t : Tx} (h : W.claim c asSender secret data = .ok t) :
    ∃ v val, t = spends v c.id c.output secret .default none ∧ v.legacy = false ∧ v.stakeInputs = [] ∧ v.stakeOutputs = [] ∧ v.minerFees.map amount = [amount W.fee] ∧
      c.amount.sub (.cur W.fee) = .ok val ∧ payload data = some v.data ∧
      v.coinOutputs = [⟨val, .unlockHash (if asSender then c.sender else c.receiver), ⟨[]⟩⟩] := by
  simp only [SwapWorld.claim, Currency.set, bind, Except.bind] at h
  split at h
  · cases h
  · rename_i d hd
    split at h
    · cases h
    · rename_i val hval
      cases h
      exact ⟨{ minerFees := [⟨some W.fee.value⟩], data := d, coinOutputs := [⟨val, .unlockHash (if asSender then c.sender else c.receiver), ⟨[]⟩⟩] }, val,
        rfl, rfl, rfl, rfl, rfl, hval, setData_payload hd, rfl⟩

theorem sub_exact {a b c : Currency} (ha : SaneAmount a) (hb : GoodCurrency b) (h : a.sub (.cur b) = .ok c) : GoodCurrency c ∧ amount c + amount b = amount a := by
  refine ⟨sub_good h, ?_⟩
  by_cases hle : amount b ≤ amount a
  · obtain ⟨c', h1, h2, h3⟩ := sub_amount ha.1 hb ha.2 hle
    rw [h] at h1; cases h1; omega
  · rw [(C15_add_sub_exact_partial a b ha.1 hb).2.2 (by omega)] at h; cases h

theorem ofRes_posted {α β : Type} {r : Res α} {f : α → Outcome β} {t : Tx} (h : t ∈ (Outcome.ofRes r f).posted) : ∃ a, r = .ok a ∧ t ∈ (f a).posted := by
  cases r with
  | error e => simp [Outcome.ofRes] at h
  | ok a => exact ⟨a, rfl, h⟩

theorem ofRes_result {α β : Type} {r : Res α} {f : α → Outcome β} {x : β} (h : (Outcome.ofRes r f).result = .ok x) : ∃ a, r = .ok a ∧ (f a).result = .ok x := by
  cases r with
  | error e => simp [Outcome.ofRes] at h
  | ok a => exact ⟨a, rfl, h⟩

theorem claimSubmit_posted {W : SwapWorld} {t t0 : Tx} (h : t ∈ (W.claimSubmit t0).posted) : W.signNew t0 = .ok t ∧ t.isFulfilled = .ok true := by
  obtain ⟨t1, h1, h2⟩ := ofRes_posted h
  obtain ⟨b, h3, h4⟩ := ofRes_posted h2
  cases b with
  | false => simp at h4
  | true => simp at h4; subst h4; exact ⟨h1, h3⟩

/-- What a posted claim looks like. -/
theorem claim_posted {W : SwapWorld} {c : Contract} {asSender : Bool} {secret : Option Bytes} {data : DataArg} {t0 t : Tx} (hv : SaneAmount c.amount)
    (hf : GoodCurrency W.fee) (h0 : W.claim c asSender secret data = .ok t0) (ht : t ∈ (W.claimSubmit t0).posted) :
    Claims W.toWorld c (if asSender then c.sender else c.receiver) secret data t ∧ ∃ k, SignedWith W.toWorld t k ∧
      (SignsFor W.H k c.sender ∨ SignsFor W.H k c.receiver) ∧
      (∀ pk, W.keys.get? (c.receiver.str W.H) = some pk → ¬ HasAddress W.H .default (c.receiver.str W.H) → k = pk ∧ SignsFor W.H pk c.receiver) ∧
      (∀ pk, W.keys.get? (c.sender.str W.H) = some pk → ¬ HasAddress W.H .default (c.sender.str W.H) → W.keys.get? (c.receiver.str W.H) = none →
        k = pk ∧ SignsFor W.H pk c.sender) := by
  obtain ⟨hs, hful⟩ := claimSubmit_posted ht
  obtain ⟨v, val, rfl, hl, hst, hso, hfee, hsub, hd, hout⟩ := claim_ok h0
  have hco : c.output.condition = .atomicSwap c.sender c.receiver c.secretHash c.lockTime := rfl
  obtain ⟨k, sig, rfl, hown, hr, hse⟩ := signNew_spends hl hst hco hs
  refine ⟨⟨⟨_, rfl, hst, hso, hl, hd⟩, ⟨_, k, sig, rfl, rfl, rfl, _, rfl, rfl, rfl⟩, ⟨_, hout, rfl, (sub_exact hv hf hsub).2⟩, hfee⟩, k, ?_⟩
  cases sig with
  | none =>
    exfalso
    simp [spends, Tx.isFulfilled, Tx.coinInputs, reduceFulfilled, CoinInput.isFulfilled, Fulfillment.isFulfilled, hco, bind, Except.bind, Tx.extraFulfilled] at hful
  | some x =>
    obtain ⟨h1, h2⟩ := hown x rfl
    exact ⟨⟨_, x, _, rfl, rfl, h1⟩, h2, fun pk h3 h4 => ⟨(hr pk h3 h4).1, (hr pk h3 h4).2.1⟩, fun pk h3 h4 h5 => ⟨(hse pk h3 h4 h5).1, (hse pk h3 h4 h5).2.1⟩⟩

theorem holds_key {W : World} (hH : Digest32 W.H) (hk : OwnsKeys W) {u : UnlockHash} (h : Holds W u) :
    ∃ k, W.keys.get? (u.str W.H) = some k ∧ HasAddress W.H k (u.str W.H) ∧ ¬ HasAddress W.H .default (u.str W.H) ∧ u.type = 1 := by
  obtain ⟨addrs, ha, a, hm, hn⟩ := h
  obtain ⟨k, h1, ⟨v, hv, rfl⟩, hz⟩ := hk addrs ha a hm
  have hfull : FullAddress v := by
    simp only [PublicKey.unlockhash, bind, Except.bind] at hv
    split at hv
    · cases hv
    · split at hv
      · cases hv
      · cases hv; exact hH _
  have ht := keyAddress_type hv
  have := (C22_address_roundtrip W.H hH v (.inl ⟨by rw [ht]; decide, hfull⟩)).2
  unfold Names at hn
  rw [this] at hn
  have hvu := Except.ok.inj hn
  subst hvu
  exact ⟨k, h1, ⟨v, hv, rfl⟩, hz, ht⟩

theorem reported_sane {W : SwapWorld} (h : SaneReports W) {id : BVal} {c : Contract} (hr : Reported W id c) : SaneAmount c.amount := by
  obtain ⟨co, h1, _, h2, _⟩ := hr; rw [← h2]; exact h _ _ _ h1

/-- **C64.** Redeeming submits something only when the given secret is the contract's. -/
theorem C64_redeem_secret (W : SwapWorld) (hs : Digest32 W.sha) (id secret : BVal) (data : DataArg) (t : Tx) (ht : t ∈ (W.redeem id secret data).posted) :
    ∃ c, Reported W id c ∧ Opens W c secret := by
  obtain ⟨c, h1, ht⟩ := ofRes_posted ht
  obtain ⟨_, h2, ht⟩ := ofRes_posted ht
  exact ⟨c, (fetch_ok h1).1, (mayRedeem_ok hs h2).1⟩

/-- **C64.** With a well-formed secret that is not the contract's, redeeming raises `AtomicSwapInvalidSecret` and submits nothing. -/
theorem C64_redeem_refused (W : SwapWorld) (hs : Digest32 W.sha) (id secret : BVal) (data : DataArg) (c : Contract) (now : Int) (b h : Bytes)
    (hc : Reported W id c) (hnow : W.chainTime = .ok now) (hb : Gives secret b) (hh : c.secretHash = some h) (hne : W.sha b ≠ h) :
    W.redeem id secret data = ⟨[], .error .atomicSwapInvalidSecret⟩ := by
  obtain ⟨co, h1, h2, h3, h4⟩ := hc
  have hf : W.fetch id false = .ok ⟨co.id, c.sender, c.receiver, c.secretHash, c.lockTime, co.value, false⟩ := by
    simp [SwapWorld.fetch, h1, bind, Except.bind, hnow, Contract.ofOutput, h2, pure, Except.pure]
  have hv := C64_verify_secret_no W.sha hs ⟨co.id, c.sender, c.receiver, c.secretHash, c.lockTime, co.value, false⟩ secret b h hb hh hne
  simp [SwapWorld.redeem, hf, Outcome.ofRes, SwapWorld.mayRedeem, bind, Except.bind, hv, throw, throwThe, MonadExceptOf.throw]

theorem redeem_claims (W : SwapWorld) (hs : Digest32 W.sha) (hH : Digest32 W.H) (hk : OwnsKeys W.toWorld) (hf : GoodCurrency W.fee)
    (id secret : BVal) (hsec : secret ≠ .none) (data : DataArg) (t : Tx) (hsane : ∀ c, Reported W id c → SaneAmount c.amount) (ht : t ∈ (W.redeem id secret data).posted) :
    ∃ c b, Reported W id c ∧ Gives secret b ∧ c.secretHash = some (W.sha b) ∧ Holds W.toWorld c.receiver ∧
      Claims W.toWorld c c.receiver (some b) data t ∧ ∃ k, HasAddress W.H k (c.receiver.str W.H) ∧ SignedWith W.toWorld t k := by
  obtain ⟨c, h1, ht⟩ := ofRes_posted ht
  obtain ⟨_, h2, ht⟩ := ofRes_posted ht
  obtain ⟨sec, h3, ht3⟩ := ofRes_posted ht
  obtain ⟨t0, h4, ht4⟩ := ofRes_posted ht3
  obtain ⟨hr, -, -⟩ := fetch_ok h1
  obtain ⟨⟨b, hb, hc⟩, hold⟩ := mayRedeem_ok hs h2
  have hsb : sec = some b := by
    have hnew : secretNew secret = .ok b := secretNew_ok.2 hb
    unfold secretNew at hnew
    unfold setSecret at h3
    cases secret with
    | none => exact absurd rfl hsec
    | _ =>
      simp only [bind, Except.bind] at hnew h3
      split at h3
      · cases h3
      · rename_i d hd; rw [hd] at hnew; cases hnew; cases h3; rfl
  subst hsb
  obtain ⟨hcl, k, hsig, -, hrk, -⟩ := claim_posted (hsane _ hr) hf h4 ht4
  obtain ⟨k', hk1, hk2, hk3, -⟩ := holds_key hH hk hold
  obtain ⟨rfl, -⟩ := hrk k' hk1 hk3
  exact ⟨c, b, hr, hb, hc, hold, hcl, k, hk2, hsig⟩

/-- **C65.** Whatever `redeem` submits claims an unspent contract for its receiver, whose key the wallet has: it pays the amount minus the
miner fee to the receiver, reveals the contract's secret and is signed with the receiver's key. -/
theorem C65_redeem (W : SwapWorld) (hs : Digest32 W.sha) (hH : Digest32 W.H) (hk : OwnsKeys W.toWorld) (hf : GoodCurrency W.fee) (hsane : SaneReports W)
    (id secret : BVal) (hsec : secret ≠ .none) (data : DataArg) (t : Tx) (ht : t ∈ (W.redeem id secret data).posted) :
    ∃ c b, Reported W id c ∧ Gives secret b ∧ c.secretHash = some (W.sha b) ∧ Holds W.toWorld c.receiver ∧
      Claims W.toWorld c c.receiver (some b) data t ∧ ∃ k, HasAddress W.H k (c.receiver.str W.H) ∧ SignedWith W.toWorld t k :=
  redeem_claims W hs hH hk hf id secret hsec data t (fun _ hr => reported_sane hsane hr) ht

theorem refund_claims (W : SwapWorld) (hf : GoodCurrency W.fee)
    (id : BVal) (data : DataArg) (t : Tx) (hsane : ∀ c, Reported W id c → SaneAmount c.amount) (ht : t ∈ (W.refund id data).posted) :
    ∃ c now, Reported W id c ∧ W.chainTime = .ok now ∧ c.lockTime ≤ now ∧ Holds W.toWorld c.sender ∧ Claims W.toWorld c c.sender none data t ∧
      ∃ k, (SignsFor W.H k c.sender ∨ SignsFor W.H k c.receiver) ∧ SignedWith W.toWorld t k := by
  obtain ⟨c, h1, ht⟩ := ofRes_posted ht
  obtain ⟨_, h2, ht⟩ := ofRes_posted ht
  obtain ⟨t0, h4, ht⟩ := ofRes_posted ht
  obtain ⟨hr, -, -⟩ := fetch_ok h1
  obtain ⟨⟨now, hn, hle⟩, hold⟩ := mayRefund_ok h2
  obtain ⟨hcl, k, hsig, hsf, -, -⟩ := claim_posted (hsane _ hr) hf h4 ht
  exact ⟨c, now, hr, hn, hle, hold, hcl, k, hsf, hsig⟩

/-- **C65.** Whatever `refund` submits claims an unspent contract that is no longer locked for its sender, whose key the wallet has: it pays the
amount minus the miner fee to the sender, and reveals no secret. -/
theorem C65_refund (W : SwapWorld) (hf : GoodCurrency W.fee) (hsane : SaneReports W)
    (id : BVal) (data : DataArg) (t : Tx) (ht : t ∈ (W.refund id data).posted) :
    ∃ c now, Reported W id c ∧ W.chainTime = .ok now ∧ c.lockTime ≤ now ∧ Holds W.toWorld c.sender ∧ Claims W.toWorld c c.sender none data t ∧
      ∃ k, (SignsFor W.H k c.sender ∨ SignsFor W.H k c.receiver) ∧ SignedWith W.toWorld t k :=
  refund_claims W hf id data t (fun _ hr => reported_sane hsane hr) ht

theorem refund_signed (W : SwapWorld) (hH : Digest32 W.H) (hk : OwnsKeys W.toWorld) (id : BVal) (data : DataArg) (t : Tx)
    (hf : GoodCurrency W.fee)
    (hsane : ∀ c, Reported W id c → SaneAmount c.amount) (ht : t ∈ (W.refund id data).posted) (hno : ∀ c, Reported W id c → W.keys.get? (c.receiver.str W.H) = none) :
    ∃ c k, Reported W id c ∧ HasAddress W.H k (c.sender.str W.H) ∧ SignedWith W.toWorld t k := by
  obtain ⟨c, h1, ht⟩ := ofRes_posted ht
  obtain ⟨_, h2, ht⟩ := ofRes_posted ht
  obtain ⟨t0, h4, ht⟩ := ofRes_posted ht
  obtain ⟨hr, -, -⟩ := fetch_ok h1
  obtain ⟨-, hold⟩ := mayRefund_ok h2
  obtain ⟨-, k, hsig, -, -, hse⟩ := claim_posted (hsane _ hr) hf h4 ht
  obtain ⟨k', hk1, hk2, hk3, -⟩ := holds_key hH hk hold
  obtain ⟨rfl, -⟩ := hse k' hk1 hk3 (hno c hr)
  exact ⟨c, k, hr, hk2, hsig⟩

/-- **C65** (what holds). When the wallet has no key it would use for the receiver, the refund is signed with the sender's key. -/
theorem C65_refund_signed_partial (W : SwapWorld) (hH : Digest32 W.H) (hk : OwnsKeys W.toWorld) (id : BVal) (data : DataArg) (t : Tx)
    (hf : GoodCurrency W.fee) (hsane : SaneReports W)
    (ht : t ∈ (W.refund id data).posted) (hno : ∀ c, Reported W id c → W.keys.get? (c.receiver.str W.H) = none) :
    ∃ c k, Reported W id c ∧ HasAddress W.H k (c.sender.str W.H) ∧ SignedWith W.toWorld t k :=
  refund_signed W hH hk id data t hf (fun _ hr => reported_sane hsane hr) ht hno

theorem afterClaim_bare {W : SwapWorld} {t t' : Tx} (h : W.afterClaim t = .ok t') : bare t' = bare t := by
  simp only [SwapWorld.afterClaim, bind, Except.bind] at h
  split at h
  · cases h
  · split at h
    · cases h
    · split at h
      · cases h
      · split at h
        · cases h
        · rename_i q hq
          obtain ⟨t1, w1⟩ := q
          cases h
          exact claimOutputs_bare hq

theorem claimSubmit_told {W : SwapWorld} {t0 : Tx} : (W.claimSubmit t0).posted.length ≤ 1 ∧
    ∀ t', (W.claimSubmit t0).result = .ok t' → ∃ t, (W.claimSubmit t0).posted = [t] ∧ bare t' = bare t := by
  unfold SwapWorld.claimSubmit
  cases W.signNew t0 with
  | error e => simp [Outcome.ofRes]
  | ok t =>
    cases ht : t.isFulfilled with
    | error e => simp [Outcome.ofRes, ht]
    | ok b =>
      cases b with
      | false => simp [Outcome.ofRes, ht]
      | true => simp only [Outcome.ofRes, ht, if_true, List.length_singleton, Nat.le_refl, true_and]; exact fun t' h => ⟨t, rfl, afterClaim_bare h⟩

theorem ofRes_truly {α : Type} {r : Res α} {f : α → Outcome Tx} (h : ∀ a, r = .ok a → ToldTruly (f a)) : ToldTruly (Outcome.ofRes r f) := by
  cases r with
  | error e => simp [Outcome.ofRes, ToldTruly]
  | ok a => exact h a rfl

/-- **C65.** `redeem` and `refund` submit at most one transaction, and return only if they submitted the returned one. -/
theorem C65_told (W : SwapWorld) (id secret : BVal) (data : DataArg) : ToldTruly (W.redeem id secret data) ∧ ToldTruly (W.refund id data) :=
  ⟨ofRes_truly fun _ _ => ofRes_truly fun _ _ => ofRes_truly fun _ _ => ofRes_truly fun _ _ => claimSubmit_told,
   ofRes_truly fun _ _ => ofRes_truly fun _ _ => ofRes_truly fun _ _ => claimSubmit_told⟩

/-! ## New contracts -/

theorem dataIf_eq (d : DataArg) : dataIf d = setData d := by
  unfold dataIf
  cases d <;> simp [DataArg.truthy, setData]
  · rename_i s
    cases s <;> simp [utf8]
  · intro h; simp [h]

theorem partyNew_ok {H : Bytes → Bytes} {r : Recipient} {u : UnlockHash} (h : partyNew H r = .ok u) : PartyOf H r u := by
  unfold partyNew at h
  split at h
  · cases h; rfl
  · simp only [bind, Except.bind] at h
    split at h
    · cases h
    · rename_i v hv
      unfold swapParty at h
      split at h
      · rename_i ht; cases h; exact ⟨hv, ht.symm⟩
      · cases h
  · unfold swapParty at h
    split at h
    · rename_i ht; cases h; exact ⟨rfl, ht.symm⟩
    · cases h
  · cases h

theorem refundTime_ok {time : LockVal} {T T' : Int} (h : refundTime time = .ok T) (h' : swapLockTime T = .ok T') : RefundAt time T' := by
  have : T' = T ∧ 500000000 ≤ T := by
    simp only [swapLockTime, outputLock, bind, Except.bind] at h'
    split at h'
    · cases h'
    · rename_i v hv
      split at hv
      · cases hv
      · cases hv
        split at h'
        · rename_i hl; cases h'; exact ⟨rfl, by simpa [lockIsTimestamp] using hl⟩
        · cases h'
  obtain ⟨rfl, hle⟩ := this
  unfold refundTime at h
  split at h <;> cases h
  · exact ⟨.inr rfl, hle⟩
  · exact ⟨.inl rfl, hle⟩

theorem contractTx_ok {W : SwapWorld} {w : Wallets} {r : Recipient} {a : Currency} {time : LockVal} {src : Source} {refund : Recipient} {data : DataArg}
    {hash : Bytes} {t : Tx} (hs : SaneOutputs (walletsSpendable w)) (hf : GoodCurrency W.fee) (ha : GoodCurrency a)
    (h : W.contractTx w r a time src refund data hash = .ok t) :
    ∃ s u T, RefunderOf W.toWorld w src refund s ∧ PartyOf W.H r u ∧ RefundAt time T ∧
      W.payment w [⟨a, .atomicSwap s u (some hash) T, ⟨[]⟩⟩] a src refund data = .ok t := by
  simp only [SwapWorld.contractTx, bind, Except.bind] at h
  split at h
  · cases h
  · rename_i need hneed
    split at h
    · cases h
    · rename_i x hx
      obtain ⟨ins, rem, sug⟩ := x
      simp only at h
      split at h
      · cases h
      · rename_i rf hrf
        split at h
        · cases h
        · rename_i fee hfe
          split at h
          · cases h
          · rename_i d hd
            split at h
            · cases h
            · rename_i T hT
              split at h
              · cases h
              · rename_i c hc
                cases h
                simp only [contractCondition, bind, Except.bind] at hc
                split at hc
                · cases hc
                · rename_i s hs'
                  split at hc
                  · cases hc
                  · rename_i u hu
                    split at hc
                    · cases hc
                    · rename_i hh hhh
                      have e : hh = hash := (secretHashNew_ok.1 hhh).1.symm
                      subst e
                      split at hc
                      · cases hc
                      · rename_i T' hT'
                        cases hc
                        have hto := (fund_facts (refund := refund) ha hf hs hneed hx).2.2.2.2.2.2 rf hrf
                        refine ⟨s, u, T', ?_, partyNew_ok hu, refundTime_ok hT hT', ?_⟩
                        · have hp := partyNew_ok hs'
                          unfold SwapWorld.refunder at hp
                          split at hp
                          · rename_i v; obtain ⟨rfl, -⟩ := hp; exact .remainder hto
                          · rename_i hne; exact .primary rf hto (fun v hv => hne v hv) hp.1
                        · simp only [World.payment, bind, Except.bind, hneed, hx, hrf, hfe, dataIf_eq, hd, pure, Except.pure]

theorem fillIds_bare {H : Bytes → Bytes} : ∀ {n i : Nat} {t t' : Tx}, fillIds H i n t = .ok t' → bare t' = bare t := by
  intro n
  induction n with
  | zero => intro i t t' h; cases h; rfl
  | succ n ih =>
    intro i t t' h
    simp only [fillIds, bind, Except.bind] at h
    split at h
    · cases h
    · exact (ih h).trans (setOutputId_bare _ _ _)

/-- How a contract is created. -/
theorem createContract_produces {W : SwapWorld} {r : Recipient} {amt : CVal} {time : LockVal} {src : Source} {refund : Recipient} {data : DataArg}
    {hash : Bytes} {submit : Bool} {t : Tx} (h : Produces (W.createContract r amt time src refund data hash submit) t) :
    ∃ a w t0 t1, W.swapAmount amt = .ok a ∧ W.balance = .ok w ∧ W.contractTx w r a time src refund data hash = .ok t0 ∧ W.signNew t0 = .ok t1 ∧
      fillIds W.H 0 t1.coinOutputs.length t1 = .ok t := by
  obtain ⟨a, h1, h⟩ := ofRes_produces h
  obtain ⟨w, h2, h⟩ := ofRes_produces h
  obtain ⟨t0, h3, h⟩ := ofRes_produces h
  obtain ⟨t1, h4, h⟩ := ofRes_produces h
  obtain ⟨t2, h5, h⟩ := ofRes_produces h
  refine ⟨a, w, t0, t1, h1, h2, h3, h4, ?_⟩
  have : t = t2 := by
    unfold SwapWorld.submitContract at h
    split at h
    · obtain ⟨b, -, h⟩ := ofRes_produces h
      split at h
      · rcases h with h | ⟨b, h⟩
        · simpa using h
        · simp only [bind, Except.bind] at h
          split at h <;> cases h; rfl
      · rcases h with h | ⟨b, h⟩
        · simp at h
        · cases h; rfl
    · rcases h with h | ⟨b, h⟩
      · simp at h
      · cases h; rfl
  rw [this]; exact h5

theorem swapAmount_ok {W : SwapWorld} {amt : CVal} {a : Currency} (hv : ∀ c, amt = .cur c → GoodCurrency c) (hf : GoodCurrency W.fee)
    (h : W.swapAmount amt = .ok a) : Currency.set amt = .ok a ∧ GoodCurrency a ∧ amount W.fee < amount a := by
  simp only [SwapWorld.swapAmount, bind, Except.bind] at h
  split at h
  · cases h
  · rename_i a' ha
    split at h
    · cases h
    · rename_i hle
      cases h
      obtain ⟨h1, h2, h3⟩ := positive_spec hv ha
      refine ⟨h1, h2, ?_⟩
      have := (le_amount h2 hf).not.1 hle
      omega

theorem createContract_spec {W : SwapWorld} {r : Recipient} {amt : CVal} {time : LockVal} {src : Source} {refund : Recipient} {data : DataArg}
    {hash : Bytes} {submit : Bool} {t : Tx} {w : Wallets} (hw : W.balance = .ok w) (hs : SaneOutputs (walletsSpendable w)) (hf : GoodCurrency W.fee)
    (hv : ∀ c, amt = .cur c → GoodCurrency c) (h : Produces (W.createContract r amt time src refund data hash submit) t) :
    IsContract W.toWorld w r amt hash time src refund data t := by
  obtain ⟨a, w', t0, t1, h1, h2, h3, h4, h5⟩ := createContract_produces h
  rw [hw] at h2; cases h2
  obtain ⟨g1, g2, g3⟩ := swapAmount_ok hv hf h1
  obtain ⟨s, u, T, k1, k2, k3, k4⟩ := contractTx_ok hs hf g2 h3
  refine ⟨a, s, u, T, g1, g3, k1, k2, k3, ?_⟩
  have := payment_spec (W := W.toWorld) hs hf g2 (.inl (by simp [total])) k4
  exact isPayment_bare ((fillIds_bare h5).trans (signNew_bare h4)) this

theorem resultOf_creates {W : SwapWorld} {o : Outcome (Tx × Bool)} {t : Tx} (h : Creates (W.resultOf o) t) : Produces o t := by
  rcases h with h | ⟨c, b, h⟩
  · exact .inl h
  · right
    simp only [SwapWorld.resultOf, bind, Except.bind] at h
    split at h
    · cases h
    · rename_i x hx
      obtain ⟨t1, b1⟩ := x
      simp only at h
      split at h
      · cases h
      · split at h
        · cases h
        · split at h
          · cases h
          · cases h; exact ⟨_, hx⟩

theorem ofRes_creates {α : Type} {r : Res α} {f : α → Outcome (Contract × Tx × Bool)} {t : Tx} (h : Creates (Outcome.ofRes r f) t) :
    ∃ a, r = .ok a ∧ Creates (f a) t := by
  cases r with
  | error e => rcases h with h | ⟨c, b, h⟩ <;> simp [Outcome.ofRes] at h
  | ok a => exact ⟨a, rfl, h⟩

/-- **C65** (what holds: below 10^28 smallest units). Whatever `initiate` submits or returns is a contract as asked for, under the hash of the
secret; the amount exceeds the miner fee. -/
theorem C65_initiate_partial (W : SwapWorld) (hsh : Digest32 W.sha) (secret : Bytes) (r : Recipient) (amt : CVal) (time : LockVal) (src : Source) (refund : Recipient)
    (data : DataArg) (submit : Bool) (w : Wallets) (hw : W.balance = .ok w) (hs : SaneOutputs (walletsSpendable w)) (hf : GoodCurrency W.fee)
    (hv : ∀ c, amt = .cur c → GoodCurrency c) (t : Tx) (ht : Creates (W.initiate secret r amt time src refund data submit) t) :
    IsContract W.toWorld w r amt (W.sha secret) time src refund data t := by
  obtain ⟨h, h1, ht⟩ := ofRes_creates ht
  have : h = W.sha secret := (secretHashNew_ok.1 h1).1.symm
  subst this
  exact createContract_spec hw hs hf hv (resultOf_creates ht)

/-- **C65** (what holds: below 10^28 smallest units). Whatever `participate` submits or returns is a contract as asked for. -/
theorem C65_participate_partial (W : SwapWorld) (r : Recipient) (amt : CVal) (hash : BVal) (time : LockVal) (src : Source) (refund : Recipient)
    (data : DataArg) (submit : Bool) (w : Wallets) (hw : W.balance = .ok w) (hs : SaneOutputs (walletsSpendable w)) (hf : GoodCurrency W.fee)
    (hv : ∀ c, amt = .cur c → GoodCurrency c) (t : Tx) (ht : Creates (W.participate r amt hash time src refund data submit) t) :
    ∃ h, Gives hash h ∧ IsContract W.toWorld w r amt h time src refund data t := by
  obtain ⟨h, h1, ht⟩ := ofRes_creates ht
  exact ⟨h, secretHashNew_ok.1 h1, createContract_spec hw hs hf hv (resultOf_creates ht)⟩

/-! ## Examples -/

/-- A contract over 10 TFT: the sender has key 1, the receiver key 2. -/
def swapCoin : CoinOutput := ⟨⟨some ⟨false, 10, 0⟩⟩, .atomicSwap (addrOf key1) (addrOf key2) (some (toyHash (List.replicate 32 7))) 1500000000, ⟨List.replicate 32 9⟩⟩

/-- A wallet with the given keys that is told about this contract, at the given time. -/
def swapWorld (keys : List PublicKey) (now : Int) : SwapWorld where
  toWorld := { demoWorld with
    keys := { seed := [], pairs := keys.map fun k => ((addrOf k).str toyHash, k), primary := ((keys.map fun k => (addrOf k).str toyHash).head?).getD [] }
    addresses := .ok (keys.map fun k => (addrOf k).str toyHash)
    chainTime := .ok now }
  sha := toyHash
  output := fun _ => .ok (swapCoin, false)

theorem zero_not {a : Str} (h : (PublicKey.default.unlockhash toyHash).toOption.map (·.str toyHash) ≠ some a) : ¬ HasAddress toyHash .default a := by
  rintro ⟨u, hu, rfl⟩
  exact h (by rw [hu]; rfl)

theorem swapWorld_owns (keys : List PublicKey) (h : ∀ k ∈ keys, k = key1 ∨ k = key2) (now : Int) : OwnsKeys (swapWorld keys now).toWorld := by
  intro addrs ha a hm
  cases ha
  obtain ⟨k, hk, rfl⟩ := List.mem_map.1 hm
  refine ⟨k, ?_, ?_, ?_⟩
  · have h12 : (addrOf key1).str toyHash ≠ (addrOf key2).str toyHash := by decide +kernel
    have hp : ∀ k, k = key1 ∨ k = key2 → ((addrOf k).str toyHash).take 2 ≠ "00".toList := by rintro k (rfl | rfl) <;> decide +kernel
    unfold Keys.get?
    rw [if_neg (hp k (h k hk))]
    unfold Keys.lookup
    show Option.map (·.2) ((keys.map fun k => ((addrOf k).str toyHash, k)).find? _) = _
    cases hf : (keys.map fun k => ((addrOf k).str toyHash, k)).find? (fun p => p.1 = (addrOf k).str toyHash) with
    | none =>
      have := List.find?_eq_none.1 hf (((addrOf k).str toyHash), k) (List.mem_map.2 ⟨k, hk, rfl⟩)
      simp at this
    | some p =>
      have h1 := List.find?_some hf
      obtain ⟨k', hk', rfl⟩ := List.mem_map.1 (List.mem_of_find?_eq_some hf)
      simp only [decide_eq_true_eq] at h1
      rcases h k hk with rfl | rfl <;> rcases h k' hk' with rfl | rfl
      · rfl
      · exact absurd h1.symm h12
      · exact absurd h1 h12
      · rfl
  · rcases h k hk with rfl | rfl
    · exact ⟨addrOf key1, (by show key1.unlockhash toyHash = _; decide +kernel), rfl⟩
    · exact ⟨addrOf key2, (by show key2.unlockhash toyHash = _; decide +kernel), rfl⟩
  · exact zero_not (by rcases h k hk with rfl | rfl <;> decide +kernel)

/-- The hypotheses of `C65_redeem` are met and a transaction is submitted. -/
example : ((swapWorld [key2] 1600000000).redeem (.bytes (List.replicate 32 9)) (.bytes (List.replicate 32 7)) .none).posted.length = 1 := by decide +kernel
/-- A wrong secret. -/
example : ((swapWorld [key2] 1600000000).redeem (.bytes (List.replicate 32 9)) (.bytes (List.replicate 32 8)) .none).posted.length = 0 ∧
    ((swapWorld [key2] 1600000000).redeem (.bytes (List.replicate 32 9)) (.bytes (List.replicate 32 8)) .none).result.map (fun _ => ()) =
      .error .atomicSwapInvalidSecret := by decide +kernel
/-- Refunding is possible, but not too early and not for the receiver. -/
example : ((swapWorld [key1] 1600000000).refund (.bytes (List.replicate 32 9)) .none).posted.length = 1 ∧
    ((swapWorld [key1] 1400000000).refund (.bytes (List.replicate 32 9)) .none).posted.length = 0 ∧
    ((swapWorld [key2] 1600000000).refund (.bytes (List.replicate 32 9)) .none).posted.length = 0 := by decide +kernel
example : Digest32 (swapWorld [key2] 0).sha ∧ SaneReports (swapWorld [key2] 0) := by
  refine ⟨toyHash_digest, fun id co b h => ?_⟩
  cases h
  exact ⟨⟨rfl, by decide⟩, by decide +kernel⟩

/-- A refund that is submitted without the signature of the sender. -/
theorem C65_refund_signed_false : ∃ (W : SwapWorld) (id : BVal) (c : Contract) (t : Tx), OwnsKeys W.toWorld ∧ Reported W id c ∧
    t ∈ (W.refund id .none).posted ∧ ¬ ∃ k, HasAddress W.H k (c.sender.str W.H) ∧ SignedWith W.toWorld t k := by
  have hl : ((swapWorld [key1, key2] 1600000000).refund (.bytes (List.replicate 32 9)) .none).posted.length = 1 := by decide +kernel
  obtain ⟨t, ht⟩ := List.length_eq_one_iff.1 hl
  have hk : ((swapWorld [key1, key2] 1600000000).refund (.bytes (List.replicate 32 9)) .none).posted.map
      (fun t => (t.coinInputs.getD []).map fun ci => match ci.fulfillment with | .swap k _ _ => some k | _ => none) = [[some key2]] := by decide +kernel
  refine ⟨_, .bytes (List.replicate 32 9), ⟨⟨List.replicate 32 9⟩, addrOf key1, addrOf key2, some (toyHash (List.replicate 32 7)), 1500000000,
    ⟨some ⟨false, 10, 0⟩⟩, true⟩, t, swapWorld_owns [key1, key2] (by simp) 1600000000, ⟨swapCoin, rfl, rfl, rfl, rfl⟩, by rw [ht]; simp, ?_⟩
  rintro ⟨k, ⟨u, hu, he⟩, ci, s, sec, h1, h2, h3⟩
  rw [ht] at hk
  simp [h1, h2] at hk
  subst hk
  have : key2.unlockhash toyHash = .ok (addrOf key2) := by decide +kernel
  rw [show (swapWorld [key1, key2] 1600000000).H = toyHash from rfl, this] at hu
  cases hu
  revert he
  show (addrOf key2).str toyHash = (addrOf key1).str toyHash → False
  decide +kernel

end TF.Props
