import Verif.Spec.TxSpec
import Verif.Model.TxBuild
import Verif.Model.TxJson
import Verif.Props.Fulfillments
/-!
# Properties C38, C43, C71, C72, C73: signing transactions
-/
namespace TF.Props
open TF Spec

/-! ## C38 -/

theorem signatureAdd_extras (f : Fulfillment) (k : KeyArg) (sig : BVal) (pk : PublicKey) :
    (f.signatureAdd k sig).1.hashExtras pk = f.hashExtras pk := by
  cases f with
  | single key s =>
    simp only [Fulfillment.signatureAdd]
    split
    · rfl
    · split <;> rfl
  | swap key s sec =>
    simp only [Fulfillment.signatureAdd]
    split
    · rfl
    · split <;> (cases sec <;> rfl)
  | multi ps =>
    simp only [Fulfillment.signatureAdd]
    split <;> rfl

theorem modifyAt_map {α β : Type} (g : α → β) (f : α → α × Option Err) (hf : ∀ a, g (f a).1 = g a) (l : List α) (i : Nat) :
    (modifyAt l i f).1.map g = l.map g := by
  unfold modifyAt
  split
  · rfl
  · rename_i a ha
    simp only [List.map_set, hf]
    apply List.ext_getElem?
    intro j
    by_cases hj : i = j
    · subst hj
      have hl : i < (l.map g).length := by
        rw [List.length_map]; exact (List.getElem?_eq_some_iff.1 ha).1
      rw [List.getElem?_set_self hl]; simp [ha]
    · rw [List.getElem?_set_ne hj]

/-- What of an input matters for the signed bytes. -/
def inKey (pk : PublicKey) (ci : CoinInput) : Hash × List Val := (ci.parentId, ci.fulfillment.hashExtras pk)
@[inherit_doc inKey] def stakeKey (pk : PublicKey) (ci : StakeInput) : Hash × List Val := (ci.parentId, ci.fulfillment.hashExtras pk)

theorem inKey_sign (pk : PublicKey) (k : KeyArg) (sig : BVal) (ci : CoinInput) : inKey pk (ci.sign k sig).1 = inKey pk ci := by
  simp [inKey, CoinInput.sign, signatureAdd_extras]
theorem stakeKey_sign (pk : PublicKey) (k : KeyArg) (sig : BVal) (ci : StakeInput) :
    stakeKey pk (ci.sign k sig).1 = stakeKey pk ci := by
  simp [stakeKey, StakeInput.sign, signatureAdd_extras]

theorem coin_ids (k : KeyArg) (sig : BVal) (l : List CoinInput) (i : Nat) :
    (modifyAt l i (·.sign k sig)).1.map (·.parentId) = l.map (·.parentId) :=
  modifyAt_map _ _ (fun _ => rfl) l i
theorem stake_ids (k : KeyArg) (sig : BVal) (l : List StakeInput) (i : Nat) :
    (modifyAt l i (·.sign k sig)).1.map (·.parentId) = l.map (·.parentId) :=
  modifyAt_map _ _ (fun _ => rfl) l i
theorem coin_keys (pk : PublicKey) (k : KeyArg) (sig : BVal) (l : List CoinInput) (i : Nat) :
    (modifyAt l i (·.sign k sig)).1.map (inKey pk) = l.map (inKey pk) :=
  modifyAt_map _ _ (inKey_sign pk k sig) l i
theorem stake_keys (pk : PublicKey) (k : KeyArg) (sig : BVal) (l : List StakeInput) (i : Nat) :
    (modifyAt l i (·.sign k sig)).1.map (stakeKey pk) = l.map (stakeKey pk) :=
  modifyAt_map _ _ (stakeKey_sign pk k sig) l i

/-- What of a mint fulfillment matters for the signed bytes. -/
def mintKey (pk : PublicKey) (f : Option Fulfillment) : Option (List Val) := f.map (·.hashExtras pk)

theorem mintKey_sign (pk : PublicKey) (f : Option Fulfillment) (k : KeyArg) (sig : BVal) :
    mintKey pk (signMint f k sig).1 = mintKey pk f := by
  cases f <;> simp [signMint, mintKey, signatureAdd_extras]

theorem signSelf_frame (H : Bytes → Bytes) (t : TxV146) (k : KeyArg) (sig : BVal) :
    (t.signSelf H k sig).1.sender = t.sender ∧ (t.signSelf H k sig).1.receiver = t.receiver ∧ (t.signSelf H k sig).1.names = t.names ∧
    (t.signSelf H k sig).1.fee = t.fee ∧ (t.signSelf H k sig).1.coinInputs = t.coinInputs ∧ (t.signSelf H k sig).1.refund = t.refund := by
  unfold TxV146.signSelf
  cases k with
  | key k =>
    simp only
    cases ht : t.signSelfRes H k sig with
    | error e => exact ⟨rfl, rfl, rfl, rfl, rfl, rfl⟩
    | ok t' =>
      simp only [TxV146.signSelfRes, bind, Except.bind] at ht
      split at ht
      · cases ht
      · split at ht
        · cases ht
        · split at ht
          · split at ht
            · cases ht
            · cases ht; exact ⟨rfl, rfl, rfl, rfl, rfl, rfl⟩
          · split at ht
            · cases ht
            · split at ht
              · split at ht
                · cases ht
                · cases ht; exact ⟨rfl, rfl, rfl, rfl, rfl, rfl⟩
              · cases ht
  | _ => exact ⟨rfl, rfl, rfl, rfl, rfl, rfl⟩

/-- The extra objects of the mint fulfillment, if there is one. -/
def txMint (pk : PublicKey) : Tx → Option (List Val)
  | .v128 m => mintKey pk m.mintFulfillment
  | .v129 m => mintKey pk m.mintFulfillment
  | _ => none

/-- Everything that `Tx.sigInput` (with any extras) and `Tx.preimage` read from a transaction that is not a legacy one. -/
structure SameSigned (H : Bytes → Bytes) (t t' : Tx) : Prop where
  sig : ∀ extras, t'.sigInput H extras = t.sigInput H extras
  coins : ∀ pk, t'.coinInputs.map (·.map (inKey pk)) = t.coinInputs.map (·.map (inKey pk))
  stakes : ∀ pk, t'.stakeInputs.map (stakeKey pk) = t.stakeInputs.map (stakeKey pk)
  mint : ∀ pk, txMint pk t' = txMint pk t
  legacy : ¬ IsLegacy t → ¬ IsLegacy t'

theorem SameSigned.refl (H : Bytes → Bytes) (t : Tx) : SameSigned H t t :=
  ⟨fun _ => rfl, fun _ => rfl, fun _ => rfl, fun _ => rfl, id⟩

theorem SameSigned.trans {H : Bytes → Bytes} {a b c : Tx} (h1 : SameSigned H a b) (h2 : SameSigned H b c) : SameSigned H a c :=
  ⟨fun e => (h2.sig e).trans (h1.sig e), fun p => (h2.coins p).trans (h1.coins p), fun p => (h2.stakes p).trans (h1.stakes p),
   fun p => (h2.mint p).trans (h1.mint p), fun h => h2.legacy (h1.legacy h)⟩

theorem sign_same (H : Bytes → Bytes) (t : Tx) (hl : ¬ IsLegacy t) (tgt : SigTarget) (k : KeyArg) (sig : BVal) :
    SameSigned H t (t.sign H tgt k sig).1 := by
  unfold Tx.sign
  split
  · rename_i i t
    have hl' : t.legacy = false := by simpa [IsLegacy] using hl
    refine ⟨fun e => ?_, fun pk => ?_, fun _ => rfl, fun _ => rfl, fun _ => hl⟩
    · simp [Tx.sigInput, TxV1.sigInput, hl', coin_ids]
    · simp [Tx.coinInputs, coin_keys]
  · refine ⟨fun e => ?_, fun pk => ?_, fun _ => rfl, fun _ => rfl, fun _ => id⟩
    · simp [Tx.sigInput, TxV144.sigInput, coin_ids]
    · simp [Tx.coinInputs, coin_keys]
  · refine ⟨fun e => ?_, fun pk => ?_, fun _ => rfl, fun _ => rfl, fun _ => id⟩
    · simp [Tx.sigInput, TxV145.sigInput, coin_ids]
    · simp [Tx.coinInputs, coin_keys]
  · split
    · exact .refl _ _
    · rename_i h
      refine ⟨fun e => ?_, fun pk => ?_, fun _ => rfl, fun _ => rfl, fun _ => id⟩
      · simp [Tx.sigInput, TxV146.sigInput, insOrRaise, h, coin_ids]
      · simp [Tx.coinInputs, h, coin_keys]
  · refine ⟨fun e => ?_, fun pk => ?_, fun _ => rfl, fun _ => rfl, fun _ => id⟩
    · simp [Tx.sigInput, TxV208.sigInput, coin_ids]
    · simp [Tx.coinInputs, coin_keys]
  · split
    · exact .refl _ _
    · rename_i h
      refine ⟨fun e => ?_, fun pk => ?_, fun _ => rfl, fun _ => rfl, fun _ => id⟩
      · simp [Tx.sigInput, TxV210.sigInput, insOrRaise, h, coin_ids]
      · simp [Tx.coinInputs, h, coin_keys]
  · rename_i i t
    have hl' : t.legacy = false := by simpa [IsLegacy] using hl
    refine ⟨fun e => ?_, fun _ => rfl, fun pk => ?_, fun _ => rfl, fun _ => hl⟩
    · simp [Tx.sigInput, TxV1.sigInput, hl', stake_ids]
    · simp [Tx.stakeInputs, stake_keys]
  · exact ⟨fun _ => rfl, fun _ => rfl, fun _ => rfl, fun pk => mintKey_sign pk _ _ _, fun _ => id⟩
  · exact ⟨fun _ => rfl, fun _ => rfl, fun _ => rfl, fun pk => mintKey_sign pk _ _ _, fun _ => id⟩
  · split
    · exact ⟨fun _ => rfl, fun _ => rfl, fun _ => rfl, fun _ => rfl, fun _ => id⟩
    · exact .refl _ _
  · split
    · exact ⟨fun _ => rfl, fun _ => rfl, fun _ => rfl, fun _ => rfl, fun _ => id⟩
    · exact .refl _ _
  · rename_i t
    obtain ⟨h1, h2, h3, h4, h5, h6⟩ := signSelf_frame H t k sig
    refine ⟨fun e => ?_, fun pk => ?_, fun _ => rfl, fun _ => rfl, fun _ => id⟩
    · simp [Tx.sigInput, TxV146.sigInput, h1, h2, h3, h4, h5, h6]
    · simp [Tx.coinInputs, h5]
  · split
    · exact ⟨fun _ => rfl, fun _ => rfl, fun _ => rfl, fun _ => rfl, fun _ => id⟩
    · exact .refl _ _
  · exact .refl _ _

theorem SameSigned.preimage {H : Bytes → Bytes} {t t' : Tx} (h : SameSigned H t t') (tgt : SigTarget) (pk : PublicKey) :
    t'.preimage H tgt pk = t.preimage H tgt pk := by
  cases tgt with
  | coin i =>
    have := h.coins pk
    unfold Tx.preimage
    simp only
    cases hc : t.coinInputs with
    | none =>
      cases hc' : t'.coinInputs with
      | none => rfl
      | some l' => simp [hc, hc'] at this
    | some l =>
      cases hc' : t'.coinInputs with
      | none => simp [hc, hc'] at this
      | some l' =>
        simp only [hc, hc', Option.map_some, Option.some.injEq] at this
        have hi := congrArg (·[i]?) this
        simp only [List.getElem?_map] at hi
        cases ha : l[i]? with
        | none =>
          cases ha' : l'[i]? with
          | none => simp [ha, ha']
          | some a' => simp [ha, ha'] at hi
        | some a =>
          cases ha' : l'[i]? with
          | none => simp [ha, ha'] at hi
          | some a' =>
            simp only [ha, ha', Option.map_some, Option.some.injEq, inKey, Prod.mk.injEq] at hi
            simp only [ha, ha', hi.2, h.sig]
  | stake i =>
    have hi := congrArg (·[i]?) (h.stakes pk)
    simp only [List.getElem?_map] at hi
    unfold Tx.preimage
    simp only
    cases ha : t.stakeInputs[i]? with
    | none =>
      cases ha' : t'.stakeInputs[i]? with
      | none => simp
      | some a' => simp [ha, ha'] at hi
    | some a =>
      cases ha' : t'.stakeInputs[i]? with
      | none => simp [ha, ha'] at hi
      | some a' =>
        simp only [ha, ha', Option.map_some, Option.some.injEq, stakeKey, Prod.mk.injEq] at hi
        simp only [hi.2, h.sig]
  | mint =>
    have hm := h.mint pk
    have key : ∀ t : Tx, t.preimage H .mint pk = (match txMint pk t with
        | some e => t.sigInput H e
        | none => .error .attributeError) := by
      intro t
      cases t with
      | v128 m => simp only [Tx.preimage, txMint]; cases m.mintFulfillment <;> rfl
      | v129 m => simp only [Tx.preimage, txMint]; cases m.mintFulfillment <;> rfl
      | _ => rfl
    rw [key t', key t, hm]
    split
    · rw [h.sig]
    · rfl
  | self spec => exact h.sig _

/-- **C38** (what holds). For every transaction of any version except a legacy one, after any number of signatures handed to any of
its inputs, its mint fulfillment or itself, in any order, accepted or refused, the bytes to be signed for every target by every key are
what they were before. -/
theorem C38_signing_keeps_preimages_partial (H : Bytes → Bytes) (t : Tx) (hl : ¬ IsLegacy t) (es : List TxSign) (tgt : SigTarget)
    (pk : PublicKey) : (signRun H t es).preimage H tgt pk = t.preimage H tgt pk := by
  have : ∀ (es : List TxSign) (t : Tx), ¬ IsLegacy t → SameSigned H t (signRun H t es) := by
    intro es
    induction es with
    | nil => intro t _; exact .refl _ _
    | cons e es ih =>
      intro t hl
      have h1 := sign_same H t hl e.target e.key e.sig
      exact h1.trans (ih _ (h1.legacy hl))
  exact (this es t hl).preimage tgt pk

/-- Two coin inputs of a legacy transaction. -/
def legacyTx : Tx := .v1 {
  coinInputs := [⟨⟨List.replicate 32 1⟩, .single .default none, none⟩, ⟨⟨List.replicate 32 2⟩, .single .default none, none⟩],
  coinOutputs := [⟨⟨some ⟨false, 5, 0⟩⟩, .unlockHash (addrOf key1), ⟨[]⟩⟩], legacy := true }

/-- **C38** (finding). For a legacy transaction the signed bytes contain the addresses of the keys already entered, so signing the
first input changes what the second signer has to sign. -/
theorem C38_signing_keeps_preimages_false :
    (legacyTx.preimage toyHash (.coin 1) key1).toOption.isSome ∧
    (signRun toyHash legacyTx [⟨.coin 0, .key key1, .bytes (List.replicate 64 9)⟩]).preimage toyHash (.coin 1) key1 ≠
      legacyTx.preimage toyHash (.coin 1) key1 := by
  decide +kernel

/-- A version-1 transaction with a single-signature and a multi-signature input. -/
def demoTx : Tx := .v1 {
  coinInputs := [⟨⟨List.replicate 32 1⟩, .single .default none, some ⟨⟨some ⟨false, 5, 0⟩⟩, .unlockHash (addrOf key1), ⟨[]⟩⟩⟩,
    ⟨⟨List.replicate 32 2⟩, .multi [], some ⟨⟨some ⟨false, 5, 0⟩⟩, .multiSig [addrOf key1, addrOf key2] 2, ⟨[]⟩⟩⟩],
  coinOutputs := [⟨⟨some ⟨false, 9, 0⟩⟩, .unlockHash (addrOf key1), ⟨[]⟩⟩], minerFees := [⟨some ⟨false, 1, 0⟩⟩] }

example : ¬ IsLegacy demoTx := by simp [IsLegacy, demoTx]
example : (signRun toyHash demoTx [⟨.coin 0, .key key1, .bytes (List.replicate 64 9)⟩, ⟨.coin 1, .key key2, .bytes (List.replicate 64 8)⟩])
    ≠ demoTx ∧ (demoTx.preimage toyHash (.coin 1) key1).toOption.isSome := by decide +kernel

/-! ## C43 -/

theorem reduceFulfilled_true (l : List CoinInput) : ∀ b, reduceFulfilled b l = .ok true ↔ b = true ∧ ∀ ci ∈ l, ci.isFulfilled = .ok true := by
  induction l with
  | nil => intro b; simp [reduceFulfilled]
  | cons ci l ih =>
    intro b
    cases b with
    | false => simp [reduceFulfilled, ih]
    | true =>
      simp only [reduceFulfilled, bind, Except.bind]
      cases h : ci.isFulfilled with
      | error e => simp [h]
      | ok b => simp [ih, h]

theorem mintFulfilled_true (f : Option Fulfillment) (p : Option Condition) :
    mintFulfilled f p = .ok true ↔ ∃ c f', p = some c ∧ f = some f' ∧ f'.isFulfilled c = .ok true := by
  cases p with
  | none => simp [mintFulfilled]
  | some c =>
    cases f with
    | some f => simp [mintFulfilled]
    | none =>
      simp only [mintFulfilled, Option.getD_none, Fulfillment.isFulfilled]
      simp only [reduceCtorEq, false_and, and_false, exists_false, iff_false]
      split <;> simp

theorem extraFulfilled_true (t : Tx) : t.extraFulfilled = .ok true ↔ ExtensionFulfilled t := by
  cases t <;> simp [Tx.extraFulfilled, ExtensionFulfilled, mintFulfilled_true, Option.isSome_iff_exists]

/-- **C43** (what holds). `is_fulfilled()` returns true iff the extension's fulfillment is there and every coin input is fulfilled; so,
for a transaction without blockstake inputs, iff everything is fulfilled. -/
theorem C43_is_fulfilled_partial (t : Tx) :
    (t.isFulfilled = .ok true ↔ ExtensionFulfilled t ∧ CoinInputsFulfilled t) ∧
    (t.stakeInputs = [] → (t.isFulfilled = .ok true ↔ ExtensionFulfilled t ∧ CoinInputsFulfilled t ∧ StakeInputsFulfilled t)) := by
  have h : t.isFulfilled = .ok true ↔ ExtensionFulfilled t ∧ CoinInputsFulfilled t := by
    unfold Tx.isFulfilled CoinInputsFulfilled
    rw [← extraFulfilled_true]
    cases he : t.extraFulfilled with
    | error e => simp [bind, Except.bind]
    | ok b =>
      cases hc : t.coinInputs with
      | none => simp [bind, Except.bind]
      | some l => simp [bind, Except.bind, reduceFulfilled_true]
  exact ⟨h, fun hs => by simp [h, StakeInputsFulfilled, hs]⟩

/-- **C43** (finding). A transaction is reported fulfilled although its blockstake input has never been signed. -/
theorem C43_is_fulfilled_false :
    ¬ ∀ t : Tx, t.isFulfilled = .ok true → ExtensionFulfilled t ∧ CoinInputsFulfilled t ∧ StakeInputsFulfilled t := by
  intro h
  have := (h (.v1 { stakeInputs := [⟨⟨List.replicate 32 1⟩, .single .default none, ⟨⟨1⟩, .unlockHash (addrOf key1), ⟨[]⟩⟩⟩] })
    (by decide +kernel)).2.2 _ (List.mem_singleton.2 rfl)
  revert this; decide +kernel

example : (signRun toyHash demoTx [⟨.coin 0, .key key1, .bytes (List.replicate 64 9)⟩, ⟨.coin 1, .key key2, .bytes (List.replicate 64 8)⟩]).isFulfilled
    = .ok false := by decide +kernel
example : (signRun toyHash demoTx [⟨.coin 0, .key key1, .bytes (List.replicate 64 9)⟩, ⟨.coin 1, .key key2, .bytes (List.replicate 64 8)⟩,
    ⟨.coin 1, .key key1, .bytes (List.replicate 64 8)⟩]).isFulfilled = .ok true := by decide +kernel

/-! ## C71 -/

/-- **C71** (what holds). Assigning coin inputs keeps number, order, parent ids and fulfillments, and keeps the parent outputs that
are known. -/
theorem C71_assign_inputs_partial (t t' : Tx) (l : List CoinInput) (h : t.setCoinInputs l = .ok t') :
    ∃ l', t'.coinInputs = some l' ∧ l'.map (·.parentId) = l.map (·.parentId) ∧ l'.map (·.fulfillment) = l.map (·.fulfillment) ∧
      ((∀ ci ∈ l, ci.parent ≠ none) → l' = l) := by
  have hc : t'.coinInputs = some (copyInputs l) := by
    cases t <;> simp only [Tx.setCoinInputs, Except.ok.injEq, reduceCtorEq] at h <;> subst h <;> rfl
  refine ⟨_, hc, by simp [copyInputs], by simp [copyInputs], ?_⟩
  intro hk
  unfold copyInputs
  conv => rhs; rw [← List.map_id l]
  apply List.map_congr_left
  intro ci hci
  obtain ⟨p, f, par⟩ := ci
  cases par with
  | none => exact absurd rfl (hk _ hci)
  | some co => rfl

/-- **C71** (finding). An input whose parent output is unknown gets a made-up one (nothing, for anyone): it was not fulfilled, and
after being assigned to a transaction it is; and the transaction makes requests for it that the input itself would not make. -/
theorem C71_assign_inputs_false :
    (∃ (ci ci' : CoinInput) (t' : Tx), ci.parent = none ∧ ci.isFulfilled = .ok false ∧ (Tx.v1 {}).setCoinInputs [ci] = .ok t' ∧
      t'.coinInputs = some [ci'] ∧ ci'.isFulfilled = .ok true) ∧
    (∃ (ci : CoinInput) (t' : Tx) (r : TxRequest), ci.requests toyHash = .ok [] ∧ (Tx.v1 {}).setCoinInputs [ci] = .ok t' ∧
      t'.requests toyHash = .ok [r]) :=
  ⟨⟨⟨⟨List.replicate 32 1⟩, .single key1 (some ⟨List.replicate 64 1, false⟩), none⟩,
    ⟨⟨List.replicate 32 1⟩, .single key1 (some ⟨List.replicate 64 1, false⟩), some .default⟩,
    .v1 { coinInputs := [⟨⟨List.replicate 32 1⟩, .single key1 (some ⟨List.replicate 64 1, false⟩), some .default⟩] },
    by decide +kernel, by decide +kernel, by decide +kernel, by decide +kernel, by decide +kernel⟩,
   ⟨⟨⟨List.replicate 32 1⟩, .single .default none, none⟩,
    .v1 { coinInputs := [⟨⟨List.replicate 32 1⟩, .single .default none, some .default⟩] },
    ⟨.coin 0, { owner := .default }⟩, by decide +kernel, by decide +kernel, by decide +kernel⟩⟩

example : ∃ t', (Tx.v1 {}).setCoinInputs ((demoTx.coinInputs).getD []) = .ok t' ∧ t'.coinInputs = demoTx.coinInputs :=
  ⟨.v1 { coinInputs := demoTx.coinInputs.getD [] }, by decide +kernel, by decide +kernel⟩

/-! ## C73 -/

theorem setTxSignature_bytes {b : Bytes} (hb : b.length = 64) : setTxSignature (.bytes b) = .ok (some ⟨b, true⟩) := by
  simp [setTxSignature, Signature.new, BinData.new, BinData.set, BVal.norm, hb, bind, Except.bind, pure, Except.pure]

/-- **C73** (what holds). When the sender's and the receiver's keys have different addresses, a fresh name transfer asks both of them
to sign, and once both have, in either order, the transaction carries exactly their two signatures. -/
theorem C73_both_sign_partial (H : Bytes → Bytes) (t : TxV146) (a b : PublicKey) (u v : UnlockHash)
    (ha : t.senderKey = some a) (hb : t.receiverKey = some b) (hs : t.senderSig = none) (hr : t.receiverSig = none)
    (hu : a.unlockhash H = .ok u) (hv : b.unlockhash H = .ok v) (huv : u ≠ v) (sa sb : Bytes) (hsa : sa.length = 64) (hsb : sb.length = 64) :
    ∃ ra rb : TxRequest, (Tx.v146 t).extraRequests H = .ok [ra, rb] ∧
      (∃ q1 q2 t1, fulfillTx H (.v146 t) ra (.key a) (.bytes sa) = ((q1, t1), none) ∧
        fulfillTx H t1 rb (.key b) (.bytes sb) = ((q2, .v146 { t with senderSig := some ⟨sa, true⟩, receiverSig := some ⟨sb, true⟩ }), none)) ∧
      (∃ q1 q2 t1, fulfillTx H (.v146 t) rb (.key b) (.bytes sb) = ((q1, t1), none) ∧
        fulfillTx H t1 ra (.key a) (.bytes sa) = ((q2, .v146 { t with senderSig := some ⟨sa, true⟩, receiverSig := some ⟨sb, true⟩ }), none)) := by
  refine ⟨⟨.self specSender, { owner := u }⟩, ⟨.self specReceiver, { owner := v }⟩, ?_, ?_, ?_⟩
  · simp [Tx.extraRequests, selfRequest, ha, hb, hs, hr, hu, hv, bind, Except.bind, pure, Except.pure]
  · refine ⟨{ owner := u, signed := true }, { owner := v, signed := true }, .v146 { t with senderSig := some ⟨sa, true⟩ }, ?_, ?_⟩
    · simp [fulfillTx, Request.fulfillCb, hu, Tx.sign, TxV146.signSelf, TxV146.signSelfRes, ha, keyOr, setTxSignature_bytes hsa, bind, Except.bind,
        pure, Except.pure]
    · simp [fulfillTx, Request.fulfillCb, hu, hv, Tx.sign, TxV146.signSelf, TxV146.signSelfRes, ha, hb, keyOr, setTxSignature_bytes hsb, bind,
        Except.bind, pure, Except.pure, huv, Ne.symm huv]
  · refine ⟨{ owner := v, signed := true }, { owner := u, signed := true }, .v146 { t with receiverSig := some ⟨sb, true⟩ }, ?_, ?_⟩
    · simp [fulfillTx, Request.fulfillCb, hu, hv, Tx.sign, TxV146.signSelf, TxV146.signSelfRes, ha, hb, keyOr, setTxSignature_bytes hsb, bind,
        Except.bind, pure, Except.pure, huv, Ne.symm huv]
    · simp [fulfillTx, Request.fulfillCb, hu, Tx.sign, TxV146.signSelf, TxV146.signSelfRes, ha, keyOr, setTxSignature_bytes hsa, bind, Except.bind,
        pure, Except.pure]

/-- **C73** (finding). When both bots have the same key (one owner moving a name between two of its bots), both requests can be
fulfilled and the receiver's signature is still missing: the second signature replaces the sender's. -/
theorem C73_both_sign_false :
    ∃ (t t1 t2 : Tx) (ra rb q1 q2 : TxRequest) , t = .v146 { senderKey := some key1, receiverKey := some key1, coinInputs := some [] } ∧
      t.requests toyHash = .ok [ra, rb] ∧
      fulfillTx toyHash t ra (.key key1) (.bytes (List.replicate 64 1)) = ((q1.req, t1), none) ∧
      fulfillTx toyHash t1 rb (.key key1) (.bytes (List.replicate 64 2)) = ((q2.req, t2), none) ∧
      t2.isFulfilled = .ok false ∧ q1.req.signed = true ∧ q2.req.signed = true := by
  refine ⟨_, .v146 { senderKey := some key1, receiverKey := some key1, coinInputs := some [], senderSig := some ⟨List.replicate 64 1, true⟩ },
    .v146 { senderKey := some key1, receiverKey := some key1, coinInputs := some [], senderSig := some ⟨List.replicate 64 2, true⟩ },
    ⟨.self specSender, { owner := addrOf key1 }⟩, ⟨.self specReceiver, { owner := addrOf key1 }⟩,
    ⟨.self specSender, { owner := addrOf key1, signed := true }⟩, ⟨.self specReceiver, { owner := addrOf key1, signed := true }⟩, rfl, ?_, ?_, ?_, ?_, rfl, rfl⟩
  all_goals decide +kernel

example : ∃ u v, key1.unlockhash toyHash = .ok u ∧ key2.unlockhash toyHash = .ok v ∧ u ≠ v :=
  ⟨addrOf key1, addrOf key2, by decide +kernel, by decide +kernel, by decide +kernel⟩

end TF.Props
