import Verif.Model.WalletOps
import Verif.Props.Payment
import Verif.Props.ThreeBot
/-!
# Properties C57, C79–C82: minting, 3Bots, ERC20 registrations, signing foreign transactions
-/
namespace TF.Props
open TF Spec

/-! ## A demonstration wallet -/

/-- 500 TFT. -/
def coin500 : CoinOutput := ⟨⟨some ⟨false, 500, 0⟩⟩, .unlockHash (addrOf key1), ⟨List.replicate 32 6⟩⟩
/-- A wallet with one key, 500 TFT and the right to mint, on a network with two active 3Bots (1 of `key1`, 2 of `key2`) and an inactive one. -/
def demoBots : World := { demoWorld with
  balance := .ok (walletsRun toyHash [.chain 1000 1000, .report coin500 true false])
  mintCondition := .ok (.unlockHash (addrOf key1))
  chainTime := .ok 1000
  record := fun i => if i = 1 then .ok (key1, 2000) else if i = 2 then .ok (key2, 2000) else if i = 3 then .ok (key1, 1000) else .error .threeBotNotFound }

/-- What the outcome shows: the version and the total of the coin outputs of each posted transaction, and whether the operation says that it
was submitted. -/
def answered (o : Outcome (Tx × Bool)) : List (Nat × Nat) × Res Bool :=
  (o.posted.map fun t => (t.version, total t.coinOutputs), o.result.map (·.2))

/-! ## Other keys -/

theorem unlocks_keys {W : World} {ks : Keys} {t : Tx} {tgt : SigTarget} {c : Condition} {f : Fulfillment}
    (h : Unlocks ({ W with keys := ks } : World) t tgt c f) : Unlocks W t tgt c f := by
  induction h with
  | free k s g => exact .free k s g
  | key u k s g o => exact .key u k s g o
  | multi o n ps e g w d => exact .multi o n ps e g w d
  | swap a b hs l k s sec g o => exact .swap a b hs l k s sec g o
  | locked v c f _ ih => exact .locked v c f ih

theorem unlocks_keys' {W : World} {ks : Keys} {t : Tx} {tgt : SigTarget} {c : Condition} {f : Fulfillment}
    (h : Unlocks W t tgt c f) : Unlocks ({ W with keys := ks } : World) t tgt c f :=
  unlocks_keys (W := { W with keys := ks }) (ks := W.keys) h

/-- Whether a transaction is signed does not depend on the keys of the wallet. -/
theorem fullySigned_keys {W : World} {ks : Keys} {t : Tx} : FullySigned ({ W with keys := ks } : World) t ↔ FullySigned W t := by
  have one : ∀ (W : World) (ks : Keys), FullySigned ({ W with keys := ks } : World) t → FullySigned W t := by
    rintro W ks ⟨⟨l, hl, h1⟩, h2, h3⟩
    refine ⟨⟨l, hl, fun i ci hi => ?_⟩, h2, fun p hp => ?_⟩
    · obtain ⟨co, g1, g2⟩ := h1 i ci hi
      exact ⟨co, g1, unlocks_keys g2⟩
    · obtain ⟨c, f, g1, g2⟩ := h3 p hp
      exact ⟨c, f, g1, unlocks_keys g2⟩
  exact ⟨one W ks, one { W with keys := ks } W.keys⟩

theorem submitsSigned_keys {W : World} {ks : Keys} {o : Outcome (Tx × Bool)} (h : SubmitsSigned ({ W with keys := ks } : World) o) : SubmitsSigned W o :=
  ⟨h.once, fun t ht => fullySigned_keys.1 (h.signed t ht), h.yes, fun t ht => ⟨(h.no t ht).1, fun hf => (h.no t ht).2 (fullySigned_keys.2 hf)⟩⟩

/-! ## C57 for the other operations -/

theorem registration_sig {L : IpLib} {months : Int} {names : Option (List NameArg)} {addresses : Option (List NetArg)} {t : TxV144}
    (h : registration L months names addresses = .ok t) : t.sig = none := by
  unfold registration at h
  simp only [bind, Except.bind] at h
  split at h
  · cases h
  · rename_i t0 ht0
    have h0 : t0.sig = none := by
      unfold TxV144.setMonths at ht0
      split at ht0 <;> cases ht0
      rfl
    split at h
    · cases h
    · split at h
      · cases h
      · split at h <;> cases h
        exact h0

/-- **C57** (`threebot.record_new`). -/
theorem C57_record_new (W : World) (L : IpLib) (months : Int) (names : Option (List NameArg)) (addresses : Option (List NetArg)) (keyIndex : Option Int)
    (src : Source) (refund : Recipient) : SubmitsSigned W (W.recordNew L months names addresses keyIndex src refund) := by
  refine ofRes_signed fun t ht => ofRes_signed fun fees _ => ofRes_signed fun w _ => ofRes_signed fun x hx => ofRes_signed fun k _ => ?_
  refine submitsSigned_keys (ks := k.1) (signSubmit_signed ⟨by simp [IsLegacy], ?_, ?_, by simp [mintPart]⟩ (fun m e => by cases e) (by simp [Tx.coinInputs]))
  · intro l hl
    cases hl
    exact fundExtra_fresh hx
  · intro p hp
    simp only [selfSignatures, List.mem_singleton] at hp
    rw [hp]
    exact registration_sig ht

example : answered (demoBots.recordNew toyIp 3 (some [.str "example".toList, .str "another.example".toList]) (some [.str "example.org".toList]) none .none .none) =
    ([(144, 329900000000)], .ok true) := by decide +kernel

theorem recordChange_sig {L : IpLib} {id months : Int} {a b : Option (List NameArg)} {c d : Option (List NetArg)} {t : TxV145}
    (h : recordChange L id months a b c d = .ok t) : t.sig = none := by
  unfold recordChange at h
  simp only [bind, Except.bind] at h
  split at h
  · cases h
  · split at h
    · cases h
    · split at h
      · cases h
      · rename_i t0 ht0
        have h0 : t0.sig = none := by
          unfold TxV145.setMonths at ht0
          split at ht0 <;> cases ht0
          rfl
        split at h
        · cases h
        · split at h
          · cases h
          · split at h
            · cases h
            · split at h <;> cases h
              exact h0

/-- **C57** (`threebot.record_update`). -/
theorem C57_record_update (W : World) (L : IpLib) (id months : Int) (namesAdd namesRemove : Option (List NameArg))
    (addrsAdd addrsRemove : Option (List NetArg)) (src : Source) (refund : Recipient) :
    SubmitsSigned W (W.recordUpdate L id months namesAdd namesRemove addrsAdd addrsRemove src refund) := by
  refine ofRes_signed fun t ht => ofRes_signed fun k _ => ofRes_signed fun fees _ => ofRes_signed fun w _ => ofRes_signed fun x hx => ?_
  refine signSubmit_signed ⟨by simp [IsLegacy], ?_, ?_, by simp [mintPart]⟩ (fun m e => by cases e) (by simp [Tx.coinInputs])
  · intro l hl
    cases hl
    exact fundExtra_fresh hx
  · intro p hp
    simp only [selfSignatures, List.mem_singleton] at hp
    rw [hp]
    exact recordChange_sig ht

example : answered (demoBots.recordUpdate toyIp 1 0 (some [.str "example".toList]) none none (some [.str "example.org".toList]) .none .none) =
    ([(145, 429900000000)], .ok true) := by decide +kernel
example : answered (demoBots.recordUpdate toyIp 2 1 (some [.str "example".toList]) none none (some [.str "example.org".toList]) .none .none) =
    ([], .ok false) := by decide +kernel

/-- **C57** (`erc20.address_register`). -/
theorem C57_address_register (W : World) (which : WhichKey) (src : Source) (refund : Recipient) :
    SubmitsSigned W (W.addressRegister which src refund) := by
  refine ofRes_signed fun k _ => ofRes_signed fun w _ => ofRes_signed fun x hx => ?_
  refine submitsSigned_keys (ks := k.1) (signSubmit_signed ⟨by simp [IsLegacy], ?_, ?_, by simp [mintPart]⟩ (fun m e => by cases e) (by simp [Tx.coinInputs]))
  · intro l hl
    cases hl
    exact fundExtra_fresh hx
  · intro p hp
    simp only [selfSignatures, List.mem_singleton] at hp
    rw [hp]

example : answered (demoBots.addressRegister .new .none .none) = ([(210, 489900000000)], .ok true) := by decide +kernel

theorem mintFulfillment_fresh {c : Condition} {f : Fulfillment} (h : fulfillmentFromCondition (some c) = .ok f) : Fresh f := by
  unfold fulfillmentFromCondition at h
  split at h
  · cases h; exact .inl rfl
  · cases h; exact .inr (.inr ⟨_, rfl⟩)
  · split at h <;> cases h
    · exact .inl rfl
    · exact .inl rfl
    · exact .inr (.inl rfl)

/-- **C57** (`minter.coins_new`). -/
theorem C57_coins_new (W : World) (nonce : Bytes) (r : Recipient) (amt : CVal) (lock : LockVal) (data : DataArg) :
    SubmitsSigned W (W.coinsNew nonce r amt lock data) := by
  refine ofRes_signed fun w _ => ofRes_signed fun t ht => ?_
  unfold World.coinCreation at ht
  simp only [bind, Except.bind] at ht
  split at ht
  · cases ht
  · split at ht
    · cases ht
    · split at ht
      · cases ht
      · split at ht
        · cases ht
        · split at ht
          · cases ht
          · split at ht
            · cases ht
            · rename_i f hf
              cases ht
              refine signSubmit_signed ⟨by simp [IsLegacy], by simp [Tx.coinInputs], by simp [selfSignatures], ?_⟩ (fun m e => by cases e) (by simp [Tx.coinInputs])
              intro c f' he
              simp only [mintPart, Option.some.injEq, Prod.mk.injEq] at he
              rw [← he.2]
              exact mintFulfillment_fresh hf

example : answered (demoBots.coinsNew (List.replicate 8 1) (.uh (addrOf key2)) (.int 5) .none .none) = ([(129, 5000000000)], .ok true) := by decide +kernel
example : answered ({ demoBots with mintCondition := .ok (.multiSig [addrOf key1, addrOf key2] 2) }.coinsNew (List.replicate 8 1) (.uh (addrOf key2)) (.int 5)
    .none .none) = ([], .ok false) := by decide +kernel

/-- **C57** (`minter.definition_set`). -/
theorem C57_definition_set (W : World) (nonce : Bytes) (minter : Recipient) (data : DataArg) :
    SubmitsSigned W (W.definitionSet nonce minter data) := by
  refine ofRes_signed fun t ht => ?_
  have hu : Unsigned t ∧ DistinctParties W.H t ∧ t.coinInputs ≠ none := by
    unfold World.mintDefinition at ht
    simp only [bind, Except.bind] at ht
    split at ht
    · cases ht
    · split at ht
      · cases ht
      · split at ht
        · cases ht
        · split at ht
          · cases ht
          · split at ht
            · cases ht
            · split at ht
              · cases ht
              · rename_i f hf
                cases ht
                refine ⟨⟨by simp [IsLegacy], by simp [Tx.coinInputs], by simp [selfSignatures], ?_⟩, fun m e => (by cases e), by simp [Tx.coinInputs]⟩
                intro c f' he
                simp only [mintPart, Option.some.injEq, Prod.mk.injEq] at he
                rw [← he.2]
                exact mintFulfillment_fresh hf
  refine ofRes_signed fun t1 hs => ?_
  unfold World.submitOnly
  refine ofRes_signed fun ok hok => ?_
  cases ok with
  | true =>
    refine ⟨by simp, ?_, ?_, ?_⟩
    · intro t2 h2
      simp only [if_true, List.mem_singleton] at h2
      rw [h2]
      exact (signNew_inv hu.2.1 hu.1 hs).signed hok hu.2.2
    · intro t2 h2
      simp only [if_true, bind, Except.bind] at h2
      split at h2
      · cases h2
      · cases h2
        exact ⟨t1, rfl, rfl⟩
    · intro t2 h2
      simp only [if_true, bind, Except.bind] at h2
      split at h2 <;> cases h2
  | false =>
    refine ⟨by simp, by simp, by simp, ?_⟩
    intro t2 h2
    cases h2
    exact ⟨rfl, fun hf => signed_fulfilled hf hok⟩

example : answered (demoBots.definitionSet (List.replicate 8 1) (.uh (addrOf key2)) .none) = ([(128, 0)], .ok true) := by decide +kernel

/-- A name transfer between parties with the same address, without the signature of the receiver. -/
def SameParties (H : Bytes → Bytes) (t : Tx) : Prop :=
  ∃ m u, t = .v146 m ∧ (keyOr m.senderKey).unlockhash H = .ok u ∧ (keyOr m.receiverKey).unlockhash H = .ok u ∧ m.receiverSig = none

theorem sign_sameParties {H : Bytes → Bytes} {t : Tx} {tgt : SigTarget} {k : KeyArg} {sig : BVal} (h : SameParties H t) : SameParties H (t.sign H tgt k sig).1 := by
  obtain ⟨m, u, rfl, h1, h2, h3⟩ := h
  cases tgt with
  | coin i =>
    simp only [Tx.sign]
    split
    · exact ⟨m, u, rfl, h1, h2, h3⟩
    · exact ⟨_, u, rfl, h1, h2, h3⟩
  | stake i => exact ⟨m, u, rfl, h1, h2, h3⟩
  | mint => exact ⟨m, u, rfl, h1, h2, h3⟩
  | self spec =>
    simp only [Tx.sign, TxV146.signSelf]
    split
    · rename_i k'
      split
      · rename_i m' hm'
        unfold TxV146.signSelfRes at hm'
        rw [h1, h2] at hm'
        simp only [bind, Except.bind] at hm'
        split at hm'
        · cases hm'
        · split at hm'
          · split at hm'
            · cases hm'
            · cases hm'
              exact ⟨_, u, rfl, h1, h2, h3⟩
          · cases hm'
      · exact ⟨m, u, rfl, h1, h2, h3⟩
    · exact ⟨m, u, rfl, h1, h2, h3⟩

theorem signOne_sameParties {W : World} {t t' : Tx} {r : TxRequest} {b : Bool} (hi : SameParties W.H t) (h : W.signOne t r = .ok (t', b)) : SameParties W.H t' := by
  unfold World.signOne at h
  split at h
  · cases h; exact hi
  · split at h
    · cases h
    · split at h
      · rename_i q t1 hq
        cases h
        unfold Request.fulfillCb at hq
        split at hq
        · simp at hq
        · split at hq
          · simp only at hq
            split at hq
            · simp at hq
            · split at hq
              · simp at hq
              · split at hq
                · simp at hq
                · rename_i t2 hs2
                  cases hq
                  exact (congrArg (fun x => SameParties W.H x.1) hs2).mp (sign_sameParties hi)
          · rename_i hk
            exact absurd rfl (hk _)
      · cases h

theorem signAll_sameParties {W : World} {rs : List TxRequest} : ∀ {t t' : Tx} {n : Nat}, SameParties W.H t → W.signAll rs t = .ok (t', n) → SameParties W.H t' := by
  induction rs with
  | nil => intro t t' n hi h; cases h; exact hi
  | cons r rs ih =>
    intro t t' n hi h
    simp only [World.signAll, bind, Except.bind] at h
    split at h
    · cases h
    · rename_i x hx
      split at h
      · cases h
      · rename_i y hy
        cases h
        exact ih (signOne_sameParties hi hx) hy

theorem transfer_spec {W : World} {sender receiver : Int} {names : Option (List NameArg)} {t : TxV146} (h : W.transfer sender receiver names = .ok t) :
    t.senderSig = none ∧ t.receiverSig = none := by
  unfold World.transfer at h
  simp only [bind, Except.bind] at h
  repeat' split at h
  all_goals first
    | (cases h; done)
    | (cases h; exact ⟨rfl, rfl⟩)

/-- **C57** (`threebot.name_transfer`, also between 3Bots with the same key). -/
theorem C57_name_transfer (W : World) (hH : Digest32 W.H) (sender receiver : Int) (names : Option (List NameArg)) (src : Source) (refund : Recipient) :
    SubmitsSigned W (W.nameTransfer sender receiver names src refund) := by
  refine ofRes_signed fun t ht => ofRes_signed fun fees _ => ofRes_signed fun w _ => ofRes_signed fun x hx => ?_
  obtain ⟨h1, h2⟩ := transfer_spec ht
  by_cases hd : DistinctParties W.H (.v146 { t with coinInputs := some x.1, refund := x.2.1, fee := some x.2.2 })
  · refine signSubmit_signed ⟨by simp [IsLegacy], ?_, ?_, by simp [mintPart]⟩ hd (by simp [Tx.coinInputs])
    · intro l hl
      cases hl
      exact fundExtra_fresh hx
    · intro p hp
      simp only [selfSignatures, List.mem_cons, List.not_mem_nil, or_false] at hp
      rcases hp with rfl | rfl
      · exact h1
      · exact h2
  · have hs : SameParties W.H (.v146 { t with coinInputs := some x.1, refund := x.2.1, fee := some x.2.2 }) := by
      unfold DistinctParties at hd
      refine Classical.byContradiction fun hn => hd ?_
      intro m hm u v hu hv he
      cases hm
      have full : ∀ {k : PublicKey} {u : UnlockHash}, k.unlockhash W.H = .ok u → FullAddress u := by
        intro k u hk
        unfold PublicKey.unlockhash at hk
        simp only [bind, Except.bind] at hk
        repeat' split at hk
        all_goals first
          | (cases hk; done)
          | (cases hk; exact hH _)
      have huv := str_inj (full hu) (full hv) he
      subst huv
      exact hn ⟨_, u, rfl, hu, hv, h2⟩
    rcases signSubmit_spec _ (rfl : W.signSubmit w (.v146 { t with coinInputs := some x.1, refund := x.2.1, fee := some x.2.2 }) = _) with
      ⟨e, ho⟩ | ⟨t1, hsn, hb, ⟨hf, ho⟩ | ⟨hf, ho⟩⟩
    · rw [ho]
      exact ⟨by simp, by simp, by simp, by simp⟩
    · exfalso
      unfold World.signNew at hsn
      simp only [bind, Except.bind] at hsn
      split at hsn
      · cases hsn
      · split at hsn
        · cases hsn
        · split at hsn
          · cases hsn
          · rename_i y hy
            cases hsn
            obtain ⟨m, u, hm, _, _, h3⟩ := signAll_sameParties hs hy
            rw [hm] at hf
            unfold Tx.isFulfilled at hf
            simp only [Tx.extraFulfilled, h3, Option.isSome_none, Bool.and_false, bind, Except.bind] at hf
            split at hf
            · cases hf
            · rename_i l _
              have : ∀ l, reduceFulfilled false l = .ok false := by
                intro l; induction l with
                | nil => rfl
                | cons a l ih => exact ih
              rw [this] at hf; cases hf
    · rw [ho]
      refine ⟨by simp, by simp, by simp, ?_⟩
      intro t2 h2
      cases h2
      exact ⟨rfl, fun hs => signed_fulfilled hs hf⟩

example : answered (demoBots.nameTransfer 1 2 (some [.str "example".toList]) .none .none) = ([], .ok false) := by decide +kernel
example : answered ({ demoBots with keys := { demoBots.keys with pairs := demoBots.keys.pairs ++ [((addrOf key2).str toyHash, key2)] } }.nameTransfer 1 2
    (some [.str "example".toList]) .none .none) = ([(146, 449900000000)], .ok true) := by decide +kernel

end TF.Props
