import Verif.Spec.Open
import Verif.Props.Circulation
/-! # C134: a wallet spends only what it has the keys for -/
namespace TF.Props
open TF TF.Spec

/-! ## A wallet that signs differently with keys it does not have

Operations sign with keys of the wallet only, so they do the same with it. -/

open Classical in
/-- Signatures, except that those of keys the wallet does not have are longer. -/
noncomputable def longer (W : World) : PublicKey → Bytes → Bytes := fun k b => if MayUse W k then W.sign k b else W.sign k b ++ [0]
/-- The wallet with these. -/
noncomputable def masked (W : World) : World := rekeyed W (longer W)

theorem longer_same (W : World) : SameOwn W (longer W) := by
  intro k hk
  funext b
  simp only [longer, if_pos hk]

/-- The keys are all among those the wallet may use. -/
def Within (W : World) (ks : Keys) : Prop := ∀ a k, ks.get? a = some k → MayUse W k

theorem within_own (W : World) : Within W W.keys := fun a _ h => .inl ⟨a, h⟩

theorem signOne_rekeyed {W : World} {g : PublicKey → Bytes → Bytes} (hg : SameOwn W g) {ks : Keys} (h : Within W ks) (t : Tx) (r : TxRequest) :
    ({ rekeyed W g with keys := ks } : World).signOne t r = ({ W with keys := ks } : World).signOne t r := by
  unfold World.signOne
  show (match ks.get? (r.req.owner.str W.H) with
    | none => _
    | some pk => _) = (match ks.get? (r.req.owner.str W.H) with
    | none => _
    | some pk => _)
  cases e : ks.get? (r.req.owner.str W.H) with
  | none => rfl
  | some pk =>
    show (match World.inputHash W t r.target pk with
      | .error e => _
      | .ok h => _) = _
    simp only [rekeyed, hg pk (h _ _ e)]
    rfl

theorem signAll_rekeyed {W : World} {g : PublicKey → Bytes → Bytes} (hg : SameOwn W g) {ks : Keys} (h : Within W ks) : ∀ (rs : List TxRequest) (t : Tx),
    ({ rekeyed W g with keys := ks } : World).signAll rs t = ({ W with keys := ks } : World).signAll rs t
  | [], _ => rfl
  | r :: rs, t => by
    unfold World.signAll
    rw [signOne_rekeyed hg h]
    congr 1
    funext x
    obtain ⟨t, b⟩ := x
    show (_ >>= _) = (_ >>= _)
    rw [signAll_rekeyed hg h rs]

theorem signNew_rekeyed {W : World} {g : PublicKey → Bytes → Bytes} (hg : SameOwn W g) {ks : Keys} (h : Within W ks) (t : Tx) :
    ({ rekeyed W g with keys := ks } : World).signNew t = ({ W with keys := ks } : World).signNew t := by
  unfold World.signNew
  simp only [signAll_rekeyed hg h]
  rfl

theorem signSubmit_rekeyed {W : World} {g : PublicKey → Bytes → Bytes} (hg : SameOwn W g) {ks : Keys} (h : Within W ks) (w : Wallets) (t : Tx) :
    ({ rekeyed W g with keys := ks } : World).signSubmit w t = ({ W with keys := ks } : World).signSubmit w t := by
  unfold World.signSubmit
  rw [signNew_rekeyed hg h]
  rfl

theorem signSubmit_same {W : World} {g : PublicKey → Bytes → Bytes} (hg : SameOwn W g) (w : Wallets) (t : Tx) : (rekeyed W g).signSubmit w t = W.signSubmit w t := signSubmit_rekeyed hg (within_own W) w t
theorem signNew_same {W : World} {g : PublicKey → Bytes → Bytes} (hg : SameOwn W g) (t : Tx) : (rekeyed W g).signNew t = W.signNew t := signNew_rekeyed hg (within_own W) t

theorem ofRes_congr {α β : Type} {r : Res α} {f g : α → Outcome β} (h : ∀ a, r = .ok a → f a = g a) : Outcome.ofRes r f = Outcome.ofRes r g := by
  cases r with
  | error e => rfl
  | ok a => exact h a rfl

theorem new1_within {W : World} {x : Keys × PublicKey} (h : W.keys.new1 W.H W.derive = .ok x) : Within W x.1 := by
  obtain ⟨ks, k⟩ := x
  have add : ∀ (s s' : Keys), s.pairs = W.keys.pairs → s.primary = W.keys.primary → s.addPair W.H k = .ok s' → Within W s' ∧ ∀ n, Within W { s' with count := n } := by
    intro s s' hp hq h'
    have lk : ∀ a k', s'.lookup a = some k' → W.keys.lookup a = some k' ∨ k' = k := by
      intro a k' hl
      unfold Keys.addPair at h'
      cases ha : addressOf W.H k with
      | error e => rw [ha] at h'; cases h'
      | ok ad =>
        rw [ha] at h'
        simp only [bind, Except.bind] at h'
        split at h'
        · cases h'
        · cases h'
          unfold Keys.lookup at hl ⊢
          simp only [hp] at hl
          rw [List.find?_append] at hl
          cases hf : W.keys.pairs.find? (fun p => decide (p.1 = a)) with
          | some y => rw [hf] at hl; left; simpa using hl
          | none =>
            rw [hf] at hl
            right
            simp only [Option.none_or, List.find?_cons, List.find?_nil] at hl
            split at hl
            · simpa using hl.symm
            · cases hl
    have pr : s'.primary = W.keys.primary := by
      unfold Keys.addPair at h'
      cases ha : addressOf W.H k with
      | error e => rw [ha] at h'; cases h'
      | ok ad =>
        rw [ha] at h'
        simp only [bind, Except.bind] at h'
        split at h'
        · cases h'
        · cases h'; exact hq
    have main : Within W s' := by
      intro a k' hg
      unfold Keys.get? at hg
      split at hg
      · rename_i h0
        rw [pr] at hg
        rcases lk _ _ hg with hg | rfl
        · exact .inl ⟨a, by unfold Keys.get?; rw [if_pos h0]; exact hg⟩
        · exact .inr ⟨ks, h⟩
      · rename_i h0
        rcases lk _ _ hg with hg | rfl
        · exact .inl ⟨a, by unfold Keys.get?; rw [if_neg h0]; exact hg⟩
        · exact .inr ⟨ks, h⟩
    exact ⟨main, fun n => main⟩
  have h0 := h
  unfold Keys.new1 at h
  split at h
  · rename_i k0 rest hu
    cases ha : ({ W.keys with unused := rest } : Keys).addPair W.H k0 with
    | error e => rw [ha] at h; cases h
    | ok s' =>
      rw [ha] at h
      cases h
      exact (add { W.keys with unused := rest } _ rfl rfl ha).1
  · cases hk : keyAt W.H W.derive W.keys.seed W.keys.count with
    | error e => rw [hk] at h; cases h
    | ok k0 =>
      rw [hk] at h
      cases ha : W.keys.addPair W.H k0 with
      | error e => simp only [bind, Except.bind, ha] at h; cases h
      | ok s' =>
        simp only [bind, Except.bind, ha] at h
        cases h
        exact (add _ _ rfl rfl ha).2 _

theorem keyForIndex_within {W : World} {i : Option Int} {x : Keys × PublicKey} (h : W.keyForIndex i = .ok x) : Within W x.1 := by
  unfold World.keyForIndex at h
  split at h
  · exact new1_within h
  · cases ha : W.addresses with
    | error e => rw [ha] at h; cases h
    | ok l =>
      rw [ha] at h
      simp only [bind, Except.bind] at h
      split at h
      · cases h
      · simp only [pure, Except.pure] at h
        split at h
        · cases h
        · split at h
          · cases h
          · cases h; exact within_own W

theorem keyFor_within {W : World} {i : WhichKey} {x : Keys × PublicKey} (h : W.keyFor i = .ok x) : Within W x.1 := by
  unfold World.keyFor at h
  split at h
  · exact keyForIndex_within h
  · split at h
    · cases h; exact within_own W
    · rename_i s _ _
      cases hj : UnlockHash.fromJson W.H (.str s) with
      | error e => rw [hj] at h; cases h
      | ok u => rw [hj] at h; cases h
  · split at h
    · cases h; exact within_own W
    · cases h
  · exact keyForIndex_within h
  · cases h

/-! ## The operations -/

theorem erc20Send_rekeyed {W : World} {g : PublicKey → Bytes → Bytes} (hg : SameOwn W g) (addr : BVal) (amt : CVal) (src : Source) (refund : Recipient) :
    (rekeyed W g).erc20Send addr amt src refund = W.erc20Send addr amt src refund := by
  unfold World.erc20Send
  exact ofRes_congr fun w _ => ofRes_congr fun t _ => signSubmit_same hg w t

theorem coinsSend_rekeyed {W : World} {g : PublicKey → Bytes → Bytes} (hg : SameOwn W g) (r : Recipient) (amt : CVal) (src : Source) (refund : Recipient) (lock : LockVal) (data : DataArg) :
    (rekeyed W g).coinsSend r amt src refund lock data = W.coinsSend r amt src refund lock data := by
  unfold World.coinsSend
  split
  · split
    · exact erc20Send_rekeyed hg ..
    · rfl
  · exact ofRes_congr fun w _ => ofRes_congr fun t _ => signSubmit_same hg w t

theorem builderSend_rekeyed {W : World} {g : PublicKey → Bytes → Bytes} (hg : SameOwn W g) (b : Builder) (src : Source) (refund : Recipient) (data : DataArg) :
    (rekeyed W g).builderSend b src refund data = W.builderSend b src refund data := by
  unfold World.builderSend
  cases b with
  | none => rfl
  | some outs => exact congrArg (Prod.mk none) (ofRes_congr fun w _ => ofRes_congr fun t _ => signSubmit_same hg w t)

theorem recordNew_rekeyed {W : World} {g : PublicKey → Bytes → Bytes} (hg : SameOwn W g) (L : IpLib) (months : Int) (names : Option (List NameArg)) (addresses : Option (List NetArg)) (i : Option Int)
    (src : Source) (refund : Recipient) : (rekeyed W g).recordNew L months names addresses i src refund = W.recordNew L months names addresses i src refund := by
  unfold World.recordNew
  exact ofRes_congr fun t _ => ofRes_congr fun fees _ => ofRes_congr fun w _ => ofRes_congr fun x _ => ofRes_congr fun k hk =>
    signSubmit_rekeyed hg (keyForIndex_within (W := W) hk) w _

theorem recordUpdate_rekeyed {W : World} {g : PublicKey → Bytes → Bytes} (hg : SameOwn W g) (L : IpLib) (id months : Int) (na nr : Option (List NameArg)) (aa ar : Option (List NetArg))
    (src : Source) (refund : Recipient) : (rekeyed W g).recordUpdate L id months na nr aa ar src refund = W.recordUpdate L id months na nr aa ar src refund := by
  unfold World.recordUpdate
  exact ofRes_congr fun t _ => ofRes_congr fun fees _ => ofRes_congr fun w _ => ofRes_congr fun x _ => ofRes_congr fun k _ => signSubmit_same hg ..

theorem nameTransfer_rekeyed {W : World} {g : PublicKey → Bytes → Bytes} (hg : SameOwn W g) (s r : Int) (names : Option (List NameArg)) (src : Source) (refund : Recipient) :
    (rekeyed W g).nameTransfer s r names src refund = W.nameTransfer s r names src refund := by
  unfold World.nameTransfer
  exact ofRes_congr fun t _ => ofRes_congr fun fees _ => ofRes_congr fun w _ => ofRes_congr fun x _ => signSubmit_same hg ..

theorem addressRegister_rekeyed {W : World} {g : PublicKey → Bytes → Bytes} (hg : SameOwn W g) (which : WhichKey) (src : Source) (refund : Recipient) :
    (rekeyed W g).addressRegister which src refund = W.addressRegister which src refund := by
  unfold World.addressRegister
  exact ofRes_congr fun k hk => ofRes_congr fun w _ => ofRes_congr fun x _ => signSubmit_rekeyed hg (keyFor_within (W := W) hk) w _

theorem paying_rekeyed {W : World} {g : PublicKey → Bytes → Bytes} (hg : SameOwn W g) {src : Source} {refund : Recipient} {o : Outcome (Tx × Bool)} (h : Paying W src refund o) : Paying (rekeyed W g) src refund o := by
  cases h with
  | coins r amt lock data legal => rw [← coinsSend_rekeyed hg]; exact .coins r amt lock data legal
  | builder adds data legal => rw [← builderSend_rekeyed hg]; exact .builder adds data legal
  | erc20 addr amt legal => rw [← erc20Send_rekeyed hg]; exact .erc20 addr amt legal
  | recordNew L months names addresses keyIndex => rw [← recordNew_rekeyed hg]; exact .recordNew L months names addresses keyIndex
  | recordUpdate L id months na nr aa ar => rw [← recordUpdate_rekeyed hg]; exact .recordUpdate L id months na nr aa ar
  | nameTransfer sender receiver names => rw [← nameTransfer_rekeyed hg]; exact .nameTransfer sender receiver names
  | register which => rw [← addressRegister_rekeyed hg]; exact .register which

/-! ## Signatures tell the two wallets apart -/

theorem ownSig_may {W : World} {t : Tx} {tgt : SigTarget} {k : PublicKey} {s : Signature} (h : OwnSig W t tgt k s) (h' : OwnSig (masked W) t tgt k s) : MayUse W k := by
  obtain ⟨b, h1, h2⟩ := h
  obtain ⟨b', h1', h2'⟩ := h'
  have e : b' = b := by
    have : t.preimage W.H tgt k = .ok b' := h1'
    rw [h1] at this; cases this; rfl
  subst e
  by_contra hn
  have : s.value = W.sign k (W.H b') ++ [0] := by
    rw [h2']
    simp only [masked, rekeyed, longer, if_neg hn]
  rw [h2] at this
  simpa using congrArg List.length this

theorem unlocks_sigs {W : World} {t : Tx} {tgt : SigTarget} {c : Condition} {f : Fulfillment} (h : Unlocks W t tgt c f) :
    (∀ k s, f = .single k s → ∃ s', s = some s' ∧ OwnSig W t tgt k s') ∧ (∀ k s x, f = .swap k s x → ∃ s', s = some s' ∧ OwnSig W t tgt k s') ∧
      ∀ ps, f = .multi ps → ∀ p ∈ ps, OwnSig W t tgt p.key p.sig := by
  induction h with
  | free k s g => exact ⟨fun _ _ e => by cases e; exact ⟨s, rfl, g⟩, fun _ _ _ e => (by cases e), fun _ e => by cases e⟩
  | key u k s g _ => exact ⟨fun _ _ e => by cases e; exact ⟨s, rfl, g⟩, fun _ _ _ e => (by cases e), fun _ e => by cases e⟩
  | multi os n ps _ g _ _ => exact ⟨fun _ _ e => (by cases e), fun _ _ _ e => (by cases e), fun _ e => by cases e; exact g⟩
  | swap a b hs l k s x g _ => exact ⟨fun _ _ e => (by cases e), fun _ _ _ e => by cases e; exact ⟨s, rfl, g⟩, fun _ e => by cases e⟩
  | locked v c f _ ih => exact ih

/-- Signed alike by the wallet and the other one: with keys of the wallet. -/
theorem signers_may {W : World} {t : Tx} {tgt : SigTarget} {c c' : Condition} {f : Fulfillment} (h : Unlocks W t tgt c f) (h' : Unlocks (masked W) t tgt c' f) :
    ∀ k ∈ signersIn f, MayUse W k := by
  obtain ⟨a1, a2, a3⟩ := unlocks_sigs h
  obtain ⟨b1, b2, b3⟩ := unlocks_sigs h'
  intro k hk
  cases f with
  | single k' s =>
    obtain ⟨s1, rfl, g⟩ := a1 k' s rfl
    obtain ⟨s2, e, g'⟩ := b1 k' _ rfl
    cases e
    simp only [signersIn, List.mem_singleton] at hk
    subst hk
    exact ownSig_may g g'
  | swap k' s x =>
    obtain ⟨s1, rfl, g⟩ := a2 k' s x rfl
    obtain ⟨s2, e, g'⟩ := b2 k' _ x rfl
    cases e
    simp only [signersIn, List.mem_singleton] at hk
    subst hk
    exact ownSig_may g g'
  | multi ps =>
    simp only [signersIn, List.mem_map] at hk
    obtain ⟨p, hp, rfl⟩ := hk
    exact ownSig_may (a3 ps rfl p hp) (b3 ps rfl p hp)

/-- What is unlocked with keys of the wallet, the wallet can open. -/
theorem unlocks_open {W : World} {t : Tx} {tgt : SigTarget} {c : Condition} {f : Fulfillment} (h : Unlocks W t tgt c f) (hk : ∀ k ∈ signersIn f, MayUse W k) :
    CanOpen W c := by
  induction h with
  | free k s g => exact ⟨k, hk k (by simp [signersIn])⟩
  | key u k s g ho => exact ⟨k, hk k (by simp [signersIn]), ho⟩
  | multi os n ps en g ho nd => 
    refine ⟨ps.map (·.key), nd, by simpa using en, fun k hm => ⟨hk k (by simpa only [signersIn] using hm), ?_⟩⟩
    obtain ⟨p, hp, rfl⟩ := List.mem_map.1 hm
    exact ho p hp
  | swap a b hs l k s x g ho => exact ⟨k, hk k (by simp [signersIn]), ho⟩
  | locked v c f hu ih =>
    exact ih hk

theorem opens_all {W : World} {t : Tx} (h : FullySigned W t) (h' : FullySigned (masked W) t) : OpensAll W t := by
  intro l hl ci hci
  obtain ⟨i, hi, e⟩ := List.mem_iff_getElem.1 hci
  have hi' : l[i]? = some ci := by rw [List.getElem?_eq_getElem hi, e]
  obtain ⟨⟨l1, e1, h1⟩, -⟩ := h
  obtain ⟨⟨l2, e2, h2⟩, -⟩ := h'
  rw [hl] at e1 e2
  cases e1; cases e2
  obtain ⟨co, p, u⟩ := h1 i ci hi'
  obtain ⟨co', p', u'⟩ := h2 i ci hi'
  have hs := signers_may u u'
  refine ⟨hs, fun co2 hp => ?_⟩
  rw [p] at hp; cases hp
  exact unlocks_open u hs

/-- **C134.** Whatever a payment, a conversion to ERC20 coins, a 3Bot operation or a registration submits is signed with keys of the wallet only, and spends only what
the wallet has the keys for. -/
theorem C134_payment (W : World) (hH : Digest32 W.H) (src : Source) (refund : Recipient) (o : Outcome (Tx × Bool)) (call : Paying W src refund o) (t : Tx)
    (posted : t ∈ o.posted) : OpensAll W t :=
  opens_all ((paying_signed hH call).signed t posted) ((paying_signed (W := masked W) hH (paying_rekeyed (longer_same W) call)).signed t posted)

/-! ## Minting and signing transactions made elsewhere -/

theorem coinsNew_rekeyed {W : World} {g : PublicKey → Bytes → Bytes} (hg : SameOwn W g) (nonce : Bytes) (r : Recipient) (amt : CVal) (lock : LockVal) (data : DataArg) :
    (rekeyed W g).coinsNew nonce r amt lock data = W.coinsNew nonce r amt lock data := by
  unfold World.coinsNew
  exact ofRes_congr fun w _ => ofRes_congr fun t _ => signSubmit_same hg w t

theorem definitionSet_rekeyed {W : World} {g : PublicKey → Bytes → Bytes} (hg : SameOwn W g) (nonce : Bytes) (minter : Recipient) (data : DataArg) :
    (rekeyed W g).definitionSet nonce minter data = W.definitionSet nonce minter data := by
  unfold World.definitionSet
  refine ofRes_congr fun t _ => ?_
  rw [signNew_same hg]
  rfl

theorem transactionSign_rekeyed {W : World} {g : PublicKey → Bytes → Bytes} (hg : SameOwn W g) (t : Tx) (submit : Bool) :
    (rekeyed W g).transactionSign t submit = W.transactionSign t submit := by
  unfold World.transactionSign
  refine ofRes_congr fun w _ => ofRes_congr fun t _ => ofRes_congr fun rs _ => ?_
  split
  · rfl
  · unfold World.signSome
    show Outcome.ofRes (World.signAll { rekeyed W g with keys := W.keys } rs t) _ = _
    rw [signAll_rekeyed hg (within_own W)]
    rfl

theorem opens_mint {W : World} {t : Tx} (h : ExtensionSigned W t) (h' : ExtensionSigned (masked W) t) : OpensMint W t := by
  intro p hp
  obtain ⟨c, f, e, u⟩ := h.2 p hp
  obtain ⟨c', f', e', u'⟩ := h'.2 p hp
  rw [e] at e'; cases e'
  exact ⟨c, f, e, signers_may u u', unlocks_open u (signers_may u u')⟩

/-- **C134** for minting. -/
theorem C134_mint (W : World) (nonce : Bytes) (t : Tx) (r minter : Recipient) (amt : CVal) (lock : LockVal) (data : DataArg)
    (posted : t ∈ (W.coinsNew nonce r amt lock data).posted ∨ t ∈ (W.definitionSet nonce minter data).posted) : OpensMint W t := by
  rcases posted with h | h
  · refine opens_mint ((C57_coins_new ..).signed t h).2 ((C57_coins_new (masked W) nonce r amt lock data).signed t ?_).2
    rw [masked, coinsNew_rekeyed (longer_same W)]; exact h
  · refine opens_mint ((C57_definition_set ..).signed t h).2 ((C57_definition_set (masked W) nonce minter data).signed t ?_).2
    rw [masked, definitionSet_rekeyed (longer_same W)]; exact h

/-- **C134.** With other private keys for keys the wallet does not have, every operation does the same: it uses private keys of its own only. -/
theorem C134_private (W : World) (g : PublicKey → Bytes → Bytes) (hg : SameOwn W g) :
    (∀ src refund o, Paying W src refund o → Paying (rekeyed W g) src refund o) ∧
    (∀ r amt src refund lock data, (rekeyed W g).coinsSend r amt src refund lock data = W.coinsSend r amt src refund lock data) ∧
    (∀ b src refund data, (rekeyed W g).builderSend b src refund data = W.builderSend b src refund data) ∧
    (∀ addr amt src refund, (rekeyed W g).erc20Send addr amt src refund = W.erc20Send addr amt src refund) ∧
    (∀ L m ns as i src refund, (rekeyed W g).recordNew L m ns as i src refund = W.recordNew L m ns as i src refund) ∧
    (∀ L id m na nr aa ar src refund, (rekeyed W g).recordUpdate L id m na nr aa ar src refund = W.recordUpdate L id m na nr aa ar src refund) ∧
    (∀ s r ns src refund, (rekeyed W g).nameTransfer s r ns src refund = W.nameTransfer s r ns src refund) ∧
    (∀ which src refund, (rekeyed W g).addressRegister which src refund = W.addressRegister which src refund) ∧
    (∀ nonce r amt lock data, (rekeyed W g).coinsNew nonce r amt lock data = W.coinsNew nonce r amt lock data) ∧
    (∀ nonce minter data, (rekeyed W g).definitionSet nonce minter data = W.definitionSet nonce minter data) ∧
    ∀ t submit, (rekeyed W g).transactionSign t submit = W.transactionSign t submit :=
  ⟨fun _ _ _ => paying_rekeyed hg, coinsSend_rekeyed hg, builderSend_rekeyed hg, erc20Send_rekeyed hg, recordNew_rekeyed hg, recordUpdate_rekeyed hg,
    nameTransfer_rekeyed hg, addressRegister_rekeyed hg, coinsNew_rekeyed hg, definitionSet_rekeyed hg, transactionSign_rekeyed hg⟩

/-! ## Swap contracts -/

@[inherit_doc rekeyed] def rekeyedSwap (W : SwapWorld) (g : PublicKey → Bytes → Bytes) : SwapWorld := { W with toWorld := rekeyed W.toWorld g }

theorem createContract_rekeyed {W : SwapWorld} {g : PublicKey → Bytes → Bytes} (hg : SameOwn W.toWorld g) (r : Recipient) (amt : CVal) (time : LockVal) (src : Source) (refund : Recipient) (data : DataArg) (h : Bytes)
    (submit : Bool) : (rekeyedSwap W g).createContract r amt time src refund data h submit = W.createContract r amt time src refund data h submit := by
  unfold SwapWorld.createContract
  refine ofRes_congr fun a _ => ofRes_congr fun w _ => ofRes_congr fun t _ => ?_
  show Outcome.ofRes ((rekeyed W.toWorld g).signNew t) _ = _
  rw [signNew_same hg]
  rfl

theorem initiate_rekeyed {W : SwapWorld} {g : PublicKey → Bytes → Bytes} (hg : SameOwn W.toWorld g) (secret : Bytes) (r : Recipient) (amt : CVal) (time : LockVal) (src : Source) (refund : Recipient) (data : DataArg)
    (submit : Bool) : (rekeyedSwap W g).initiate secret r amt time src refund data submit = W.initiate secret r amt time src refund data submit := by
  unfold SwapWorld.initiate
  refine ofRes_congr fun h _ => ?_
  rw [createContract_rekeyed hg]
  rfl

theorem participate_rekeyed {W : SwapWorld} {g : PublicKey → Bytes → Bytes} (hg : SameOwn W.toWorld g) (r : Recipient) (amt : CVal) (hash : BVal) (time : LockVal) (src : Source) (refund : Recipient) (data : DataArg)
    (submit : Bool) : (rekeyedSwap W g).participate r amt hash time src refund data submit = W.participate r amt hash time src refund data submit := by
  unfold SwapWorld.participate
  refine ofRes_congr fun h _ => ?_
  rw [createContract_rekeyed hg]
  rfl

theorem claimSubmit_rekeyed {W : SwapWorld} {g : PublicKey → Bytes → Bytes} (hg : SameOwn W.toWorld g) (t : Tx) : (rekeyedSwap W g).claimSubmit t = W.claimSubmit t := by
  unfold SwapWorld.claimSubmit
  show Outcome.ofRes ((rekeyed W.toWorld g).signNew t) _ = _
  rw [signNew_same hg]
  rfl

/-- **C134.** The same for swap contracts: no operation uses private keys other than the wallet's. -/
theorem C134_private_contract (W : SwapWorld) (g : PublicKey → Bytes → Bytes) (hg : SameOwn W.toWorld g) :
    (∀ secret r amt time src refund data submit, (rekeyedSwap W g).initiate secret r amt time src refund data submit = W.initiate secret r amt time src refund data submit) ∧
    (∀ r amt hash time src refund data submit, (rekeyedSwap W g).participate r amt hash time src refund data submit = W.participate r amt hash time src refund data submit) ∧
    (∀ id secret data, (rekeyedSwap W g).redeem id secret data = W.redeem id secret data) ∧
    ∀ id data, (rekeyedSwap W g).refund id data = W.refund id data := by
  refine ⟨initiate_rekeyed hg, participate_rekeyed hg, fun id secret data => ?_, fun id data => ?_⟩
  · unfold SwapWorld.redeem
    exact ofRes_congr fun c _ => ofRes_congr fun _ _ => ofRes_congr fun s _ => ofRes_congr fun t _ => claimSubmit_rekeyed hg t
  · unfold SwapWorld.refund
    exact ofRes_congr fun c _ => ofRes_congr fun _ _ => ofRes_congr fun t _ => claimSubmit_rekeyed hg t

theorem contract_signed {W : SwapWorld} {secret : Bytes} {hash : BVal} {r : Recipient} {amt : CVal} {time : LockVal} {src : Source} {refund : Recipient} {data : DataArg}
    {submit : Bool} {t : Tx} (ht : t ∈ (W.initiate secret r amt time src refund data submit).posted ∨ t ∈ (W.participate r amt hash time src refund data submit).posted) :
    FullySigned W.toWorld t := by
  obtain ⟨h1, h2, h3, h4⟩ := C88_submits W secret hash r amt time src refund data
  cases submit with
  | false =>
    rw [h3, h4] at ht
    simp at ht
  | true => exact ht.elim (h1.signed t) (h2.signed t)

/-- **C134** for making a swap contract. -/
theorem C134_contract (W : SwapWorld) (secret : Bytes) (hash : BVal) (r : Recipient) (amt : CVal) (time : LockVal) (src : Source) (refund : Recipient) (data : DataArg)
    (submit : Bool) (t : Tx)
    (posted : t ∈ (W.initiate secret r amt time src refund data submit).posted ∨ t ∈ (W.participate r amt hash time src refund data submit).posted) :
    OpensAll W.toWorld t := by
  refine opens_all (contract_signed posted) (contract_signed (W := rekeyedSwap W (longer W.toWorld)) (secret := secret) (hash := hash) (r := r) (amt := amt) (time := time) (src := src)
    (refund := refund) (data := data) (submit := submit) ?_)
  rw [initiate_rekeyed (longer_same _), participate_rekeyed (longer_same _)]
  exact posted

theorem claim_opens {W : SwapWorld} {c : Contract} {asSender : Bool} {secret : Option Bytes} {data : DataArg} {t0 t : Tx}
    (h0 : W.claim c asSender secret data = .ok t0) (ht : t ∈ (W.claimSubmit t0).posted) : OpensAll W.toWorld t := by
  obtain ⟨hs, hful⟩ := claimSubmit_posted ht
  obtain ⟨v, val, rfl, hl, hst, hso, hfee, hsub, hd, hout⟩ := claim_ok h0
  have hco : c.output.condition = .atomicSwap c.sender c.receiver c.secretHash c.lockTime := rfl
  have hs' := hs
  rw [← signNew_same (longer_same _)] at hs'
  obtain ⟨k, sig, e1, hown, -⟩ := signNew_spends hl hst hco hs
  obtain ⟨k', sig', e2, hown', -⟩ := signNew_spends hl hst hco hs'
  rw [e1] at e2
  simp only [spends, Tx.v1.injEq, TxV1.mk.injEq, List.cons.injEq, CoinInput.mk.injEq, Fulfillment.swap.injEq, and_true, true_and] at e2
  obtain ⟨rfl, rfl⟩ := e2
  subst e1
  intro l hl' ci hci
  simp only [spends, Tx.coinInputs, Option.some.injEq] at hl'
  subst hl'
  rw [List.mem_singleton] at hci
  subst hci
  cases sig with
  | none =>
    exfalso
    simp [spends, Tx.isFulfilled, Tx.coinInputs, reduceFulfilled, CoinInput.isFulfilled, Fulfillment.isFulfilled, hco, bind, Except.bind, Tx.extraFulfilled] at hful
  | some x =>
    obtain ⟨h1, h2⟩ := hown x rfl
    obtain ⟨h1', -⟩ := hown' x rfl
    have hm := ownSig_may h1 h1'
    refine ⟨fun k2 hk2 => ?_, fun co hp => ?_⟩
    · simp only [signersIn, List.mem_singleton] at hk2
      subst hk2; exact hm
    · cases hp
      rw [hco]
      exact ⟨k, hm, h2⟩

/-- **C134** for redeeming and refunding a swap contract. -/
theorem C134_claim (W : SwapWorld) (id secret : BVal) (data : DataArg) (t : Tx)
    (posted : t ∈ (W.redeem id secret data).posted ∨ t ∈ (W.refund id data).posted) : OpensAll W.toWorld t := by
  rcases posted with ht | ht
  · obtain ⟨_, _, ht⟩ := ofRes_posted ht
    obtain ⟨_, _, ht⟩ := ofRes_posted ht
    obtain ⟨_, _, ht⟩ := ofRes_posted ht
    obtain ⟨t0, h4, ht⟩ := ofRes_posted ht
    exact claim_opens h4 ht
  · obtain ⟨_, _, ht⟩ := ofRes_posted ht
    obtain ⟨_, _, ht⟩ := ofRes_posted ht
    obtain ⟨t0, h4, ht⟩ := ofRes_posted ht
    exact claim_opens h4 ht

/-! ## On a chain -/

theorem valid_closed {W : World} {S : ChainState} (hl : LawfulChain S) {t : Tx} (hv : ValidOn W S t) (ho : OpensAll W t) {co : CoinOutput} (hun : UnspentOn S co)
    (hno : ¬ CanOpen W co.condition) : ¬ Spends t co.id := by
  obtain ⟨l, spent, h1, _, _, h4, h5, h6, _⟩ := hv.inputs
  rintro ⟨l', hl', ci, hci, e⟩
  rw [h1] at hl'; cases hl'
  obtain ⟨i, hi, e2⟩ := List.mem_iff_getElem.1 hci
  have hlen : l.length = spent.length := by simpa using congrArg List.length h4
  have hci' : l[i]? = some ci := by rw [List.getElem?_eq_getElem hi, e2]
  have hsp : spent[i]? = some (spent[i]'(hlen ▸ hi)) := List.getElem?_eq_getElem (hlen ▸ hi)
  have hid : ci.parentId = (spent[i]'(hlen ▸ hi)).id := by
    have := congrArg (·[i]?) h4
    simp only [List.getElem?_map, hci', hsp, Option.map_some, Option.some.injEq] at this
    exact this
  obtain ⟨k1, k2, _⟩ := h5 _ (List.getElem_mem (hlen ▸ hi))
  have hco := mem_of_ids hl k2.1 hun.1 k1 (hid.symm.trans e)
  have hu := h6 i ci _ hci' hsp
  rw [hco] at hu
  exact hno (unlocks_open hu (ho l h1 ci hci).1)

theorem claim_closed {W : SwapWorld} {S : ChainState} (hl : LawfulChain S) {t : Tx} (hv : ClaimOn W S t) (ho : OpensAll W.toWorld t) {co : CoinOutput} (hun : UnspentOn S co)
    (hno : ¬ CanOpen W.toWorld co.condition) : ¬ Spends t co.id := by
  obtain ⟨ci, co', a, b, hs, since, k, sig, x, h1, h2, h3, h4, h5, h6, _, h8, _⟩ := hv.input
  rintro ⟨l, hl', c, hc, e⟩
  rw [h1] at hl'; cases hl'
  have hk := (ho _ h1 c hc).1
  rw [List.mem_singleton] at hc
  subst hc
  obtain rfl := mem_of_ids hl h4.1 hun.1 h3 (h2.symm.trans e)
  refine hno ?_
  rw [h5]
  refine ⟨k, hk k (by rw [h6]; simp [signersIn]), ?_⟩
  rcases h8 with ⟨_, _, _, _, h⟩ | ⟨_, _, h⟩
  · exact .inr (.inr h)
  · exact .inl (.inr h)

/-- **C134.** However many wallets pay and claim in whatever order on a chain, each told the truth about the chain as it is then: an unspent output stays unspent as long as none
of them has the keys for it, whether it is of one owner, of several, locked or a contract. -/
theorem C134_closed (S S' : ChainState) (paid : Nat) (acting : List World) (who : List UnlockHash) (hl : LawfulChain S) (hr : Runs S S' acting who paid) (co : CoinOutput)
    (unspent : UnspentOn S co) (closed : ∀ W ∈ acting, ¬ CanOpen W co.condition) : UnspentOn S' co := by
  suffices h : LawfulChain S' ∧ UnspentOn S' co from h.2
  induction hr with
  | start => exact ⟨hl, unspent⟩
  | more S1 S2 acting acts who own a b before step ih =>
    obtain ⟨hl1, hun1⟩ := ih fun W h => closed W (List.mem_append_left _ h)
    refine ⟨(step_keeps hl1 step).1, ?_⟩
    have hno : ∀ W ∈ acts, ¬ CanOpen W co.condition := fun W h => closed W (List.mem_append_right _ h)
    cases step with
    | paying W C own hi src refund o call t posted taken =>
      exact accepts_untouched taken hun1 (valid_closed hl1 (C120_valid_partial W C own S1 hi.chain hi.mints hi.withdrawals hi.fee hi.positive src refund o call t posted)
        (C134_payment W hi.chain.digest src refund o call t posted) hun1 (hno _ (by simp)))
    | initiating W C own hi secret r amt legal time src refund data submit t posted taken =>
      exact accepts_untouched taken hun1 (valid_closed hl1
        (C120_contract_partial W C own S1 hi.chain hi.mints hi.withdrawals hi.fee hi.positive secret .none r amt legal time src refund data submit t (.inl posted))
        (C134_contract W secret .none r amt time src refund data submit t (.inl posted)) hun1 (hno _ (by simp)))
    | participating W C own hi hash r amt legal time src refund data submit t posted taken =>
      exact accepts_untouched taken hun1 (valid_closed hl1
        (C120_contract_partial W C own S1 hi.chain hi.mints hi.withdrawals hi.fee hi.positive [] hash r amt legal time src refund data submit t (.inr posted))
        (C134_contract W [] hash r amt time src refund data submit t (.inr posted)) hun1 (hno _ (by simp)))
    | redeeming W C hi sha hash keys fee id secret names full worth data t posted taken =>
      exact accepts_untouched taken hun1 (claim_closed hl1 (C120_redeem_partial W C S1 hi sha hash keys fee id secret names full worth data t posted)
        (C134_claim W id secret data t (.inl posted)) hun1 (hno _ (by simp)))
    | refunding W C hi hash keys fee id names worth other data t posted taken =>
      exact accepts_untouched taken hun1 (claim_closed hl1 (C120_refund_partial W C S1 hi hash keys fee id names worth other data t posted)
        (C134_claim W id .none data t (.inr posted)) hun1 (hno _ (by simp)))
    | waiting same height time =>
      unfold UnspentOn CreatedOn SpentOn
      rw [same]
      exact hun1

/-! ## Concrete wallets -/

theorem rich_may {k : PublicKey} (h : MayUse richWorld k) : k = key1 ∨ ∃ x, richWorld.keys.new1 richWorld.H richWorld.derive = .ok x ∧ k = x.2 := by
  rcases h with ⟨a, h⟩ | ⟨ks, h⟩
  · left
    have hl : ∀ a k, richWorld.keys.lookup a = some k → k = key1 := by
      intro a k h
      simp only [Keys.lookup, richWorld, onExplorer, demoWorld, List.find?_cons] at h
      split at h
      · cases h; rfl
      · cases h
    unfold Keys.get? at h
    split at h <;> exact hl _ _ h
  · exact .inr ⟨_, h, rfl⟩

/-- The wallet does not sign for the other owner, with the key it has or the one it makes next. -/
theorem rich_closed {k : PublicKey} (h : MayUse richWorld k) : ¬ SignsFor richWorld.H k (addrOf key2) := by
  have h1 : (decide (key1.unlockhash toyHash = .ok (addrOf key1)) && decide ((addrOf key1).str toyHash ≠ (addrOf key2).str toyHash)) = true := by decide +kernel
  have h2 : ((richWorld.keys.new1 richWorld.H richWorld.derive).bind fun x => x.2.unlockhash toyHash).map (fun u => decide (u.str toyHash ≠ (addrOf key2).str toyHash)) = .ok true := by
    decide +kernel
  simp only [Bool.and_eq_true, decide_eq_true_eq] at h1
  rintro (h0 | ⟨u, hu, e⟩)
  · exact absurd h0 (by decide +kernel)
  · have hu : k.unlockhash toyHash = .ok u := hu
    have e : u.str toyHash = (addrOf key2).str toyHash := e
    rcases rich_may h with rfl | ⟨x, hx, rfl⟩
    · rw [h1.1] at hu
      cases hu
      exact h1.2 e
    · rw [hx] at h2
      simp only [Except.bind, hu, Except.map, Except.ok.injEq, decide_eq_true_eq] at h2
      exact h2 e

theorem rich_key1 : MayUse richWorld key1 := .inl ⟨(addrOf key1).str toyHash, by decide +kernel⟩

theorem rich_digest : Digest32 richWorld.H := guest_informed.chain.digest

/-- What the wallet can open, and what it cannot: of two owners it has the key of one, which is enough if one signature is. -/
example : CanOpen richWorld (.unlockHash (addrOf key1)) ∧ CanOpen richWorld (.multiSig [addrOf key1, addrOf key2] 1) ∧
    ¬ CanOpen richWorld (.multiSig [addrOf key1, addrOf key2] 2) ∧ ¬ CanOpen richWorld (.lockTime 50 (.unlockHash (addrOf key2))) ∧
    ¬ CanOpen richWorld (.atomicSwap (addrOf key2) (addrOf key2) none 9) := by
  have h1 : SignsFor richWorld.H key1 (addrOf key1) := .inr ⟨addrOf key1, by decide +kernel, rfl⟩
  refine ⟨⟨key1, rich_key1, h1⟩, ⟨[key1], by simp, by decide, ?_⟩, ?_, ?_, ?_⟩
  · intro k hk
    rw [List.mem_singleton] at hk
    subst hk
    exact ⟨rich_key1, addrOf key1, by simp, h1⟩
  · rintro ⟨ks, hnd, hn, hk⟩
    have hsig : ∀ k ∈ ks, k = key1 := by
      intro k hm
      obtain ⟨hmay, u, hu, hs⟩ := hk k hm
      rcases rich_may hmay with rfl | ⟨x, hx, rfl⟩
      · rfl
      · exfalso
        have h2 : ((richWorld.keys.new1 richWorld.H richWorld.derive).bind fun x => x.2.unlockhash toyHash).map
            (fun u => decide (u.str toyHash ≠ (addrOf key1).str toyHash)) = .ok true := by decide +kernel
        simp only [List.mem_cons, List.not_mem_nil, or_false] at hu
        rcases hu with rfl | rfl
        · rcases hs with h0 | ⟨u, hu, e⟩
          · exact absurd h0 (by decide +kernel)
          · have hu : x.2.unlockhash toyHash = .ok u := hu
            rw [hx] at h2
            simp only [Except.bind, hu, Except.map, Except.ok.injEq, decide_eq_true_eq] at h2
            exact h2 e
        · exact rich_closed hmay hs
    match ks, hnd, hn, hsig with
    | [], _, hn, _ => simp at hn
    | [_], _, hn, _ => simp at hn
    | a :: b :: _, hnd, _, hsig =>
      rw [hsig a (by simp), hsig b (by simp)] at hnd
      simp at hnd
  · rintro ⟨k, hk, hs⟩
    exact rich_closed hk hs
  · rintro ⟨k, hk, hs⟩
    exact hs.elim (rich_closed hk) (rich_closed hk)

/-- The hypotheses of `C134_closed` are met, by a wallet that pays and the output of another owner. -/
example : LawfulChain guestChain ∧ UnspentOn guestChain guestCoin ∧ (∃ S', Runs guestChain S' ([] ++ [richWorld]) ([] ++ [addrOf key1]) (0 + 10 ^ 8)) ∧
    ∀ W ∈ [] ++ [richWorld], ¬ CanOpen W guestCoin.condition := by
  refine ⟨guest_informed.chain.lawful, guest_unspent, guest_runs, ?_⟩
  intro W hW
  simp only [List.nil_append, List.mem_singleton] at hW
  subst hW
  rintro ⟨k, hk, hs⟩
  exact rich_closed hk hs

/-- The operations of the other theorems submit transactions, with inputs. -/
example : Digest32 richWorld.H ∧ Paying richWorld .none .none (richWorld.coinsSend (.uh (addrOf key2)) (.int 3) .none .none .none .none) ∧
    ((richWorld.coinsSend (.uh (addrOf key2)) (.int 3) .none .none .none .none).posted.map fun (t : Tx) => (t.coinInputs.getD []).map fun ci => (signersIn ci.fulfillment, ci.parent.isSome)) = [[([key1], true)]] ∧
    ((richSwap.initiate (List.replicate 32 7) (.uh (addrOf key2)) (.int 3) (.int 1600000000) .none .none .none true).posted.map fun (t : Tx) =>
      (t.coinInputs.getD []).map fun ci => (signersIn ci.fulfillment, ci.parent.isSome)) = [[([key1], true)]] ∧
    (((contractWorld ten sevens [key2]).redeem (.bytes (List.replicate 32 9)) (.bytes (List.replicate 32 7)) .none).posted.map fun (t : Tx) =>
      (t.coinInputs.getD []).map fun ci => (signersIn ci.fulfillment, ci.parent.isSome)) = [[([key2], true)]] ∧
    (((contractWorld ten sevens [key1]).refund (.bytes (List.replicate 32 9)) .none).posted.map fun (t : Tx) =>
      (t.coinInputs.getD []).map fun ci => (signersIn ci.fulfillment, ci.parent.isSome)) = [[([key1], true)]] ∧
    ((demoBots.coinsNew (List.replicate 8 1) (.uh (addrOf key2)) (.int 5) .none .none).posted.map fun (t : Tx) => (mintPart t).bind fun p => p.2.map signersIn) = [some [key1]] :=
  ⟨rich_digest, .coins _ _ _ _ (by intro c h; cases h), by decide +kernel, by decide +kernel, by decide +kernel, by decide +kernel, by decide +kernel⟩

/-- Other private keys for keys the wallet does not have are other signatures. -/
example : SameOwn richWorld (longer richWorld) ∧ longer richWorld key2 ≠ richWorld.sign key2 := by
  refine ⟨longer_same _, fun h => ?_⟩
  have hn : ¬ MayUse richWorld key2 := fun h => rich_closed h (.inr ⟨addrOf key2, by decide +kernel, rfl⟩)
  have := congrArg List.length (congrFun h [])
  simp [longer, hn] at this

end TF.Props
