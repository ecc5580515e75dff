import Verif.Spec.Payment
import Verif.Props.Signing
/-! # Signing with the keys of a wallet -/
namespace TF.Props
open TF Spec

theorem binNew_bytes {b : Bytes} {n : Int} {e : StrEnc} {d : BinData} (h : BinData.new (.bytes b) (some n) e = .ok d) (hn : 0 < n) : d.value = b := by
  unfold BinData.new BinData.set at h
  simp only [BVal.norm, bind, Except.bind, throw, throwThe, MonadExceptOf.throw, pure, Except.pure] at h
  rw [if_neg (by omega), if_pos (by omega)] at h
  split at h
  · cases h
  · cases h; rfl

theorem hashNew_bytes {b : Bytes} {h : Hash} (hh : Hash.new (.bytes b) = .ok h) : h.value = b := by
  unfold Hash.new at hh
  simp only [bind, Except.bind] at hh
  split at hh
  · cases hh
  · rename_i d hd
    cases hh
    exact binNew_bytes hd (by decide)

theorem sigNew_bytes {b : Bytes} {a : Bool} {s : Signature} (hs : Signature.new (.bytes b) a = .ok s) : s.value = b := by
  unfold Signature.new at hs
  simp only [bind, Except.bind] at hs
  split at hs
  · cases hs
  · rename_i d hd
    cases hs
    exact binNew_bytes hd (by decide)

theorem setSignature_bytes {b : Bytes} {r : Option Signature} (h : setSignature (.bytes b) = .ok r) : ∃ s, r = some s ∧ s.value = b := by
  simp only [setSignature, bind, Except.bind] at h
  split at h
  · cases h
  · rename_i s hs
    cases h
    exact ⟨s, rfl, sigNew_bytes hs⟩

theorem sound_add {W : World} {t : Tx} {tgt : SigTarget} {c : Condition} {f f' : Fulfillment} {pk : PublicKey} {b : Bytes}
    (hs : Sound W t tgt c f) (hb : t.preimage W.H tgt pk = .ok b) {u : UnlockHash} (hw : Wanted c u) (hu : SignsFor W.H pk u)
    (h : f.signatureAdd (.key pk) (.bytes (W.sign pk (W.H b))) = (f', none)) : Sound W t tgt c f' := by
  have good : ∀ s : Signature, s.value = W.sign pk (W.H b) → GoodKey W t tgt c pk s := fun s hv => ⟨⟨b, hb, hv⟩, u, hw, hu⟩
  cases f with
  | single k s =>
    simp only [Fulfillment.signatureAdd, setKey] at h
    split at h
    · simp at h
    · rename_i r hr
      obtain ⟨s', rfl, hv⟩ := setSignature_bytes hr
      cases h
      intro s'' hs''; cases hs''
      exact good _ hv
  | swap k s sec =>
    simp only [Fulfillment.signatureAdd, setKey] at h
    split at h
    · simp at h
    · rename_i r hr
      obtain ⟨s', rfl, hv⟩ := setSignature_bytes hr
      cases h
      intro s'' hs''; cases hs''
      exact good _ hv
  | multi ps =>
    simp only [Fulfillment.signatureAdd, addPair, setKey, bind, Except.bind, throw, throwThe, MonadExceptOf.throw, pure, Except.pure] at h
    by_cases hany : (ps.any fun p => p.key.str == pk.str) = true
    · rw [if_pos hany] at h; simp at h
    · rw [if_neg hany] at h
      cases hr : setSignature (.bytes (W.sign pk (W.H b))) with
      | error e => simp [hr] at h
      | ok r =>
        simp only [hr] at h
        obtain ⟨s', rfl, hv⟩ := setSignature_bytes hr
        cases h
        obtain ⟨h1, h2⟩ := hs
        refine ⟨?_, ?_⟩
        · intro p hp
          rcases List.mem_append.1 hp with hp | hp
          · exact h1 p hp
          · simp only [List.mem_singleton] at hp
            subst hp; exact good _ hv
        · rw [List.map_append, List.nodup_append]
          refine ⟨h2, by simp, ?_⟩
          intro a ha a' ha' hEq
          simp only [List.map_cons, List.map_nil, List.mem_singleton] at ha'
          subst ha'
          obtain ⟨p, hp, rfl⟩ := List.mem_map.1 ha
          apply hany
          rw [List.any_eq_true]
          exact ⟨p, hp, by simp [hEq]⟩

/-- A complete fulfillment whose signatures are all genuine unlocks its condition. -/
theorem sound_unlocks {W : World} {t : Tx} {tgt : SigTarget} {c : Condition} {f : Fulfillment} (hs : Sound W t tgt c f)
    (hf : f.isFulfilled c = .ok true) : Unlocks W t tgt c f := by
  have inner : ∀ c0 : Condition, c.unwrap = c0 → (∀ s r hs lt, c0 ≠ .atomicSwap s r hs lt) → (∃ k sg, f = .single k sg) ∨ (∃ ps, f = .multi ps) →
      Unlocks W t tgt c0 f := by
    intro c0 hc0 _ hff
    rcases hff with ⟨k, sg, rfl⟩ | ⟨ps, rfl⟩
    · simp only [Fulfillment.isFulfilled, hc0] at hf
      cases c0 with
      | nil =>
        simp only [Except.ok.injEq, Option.isSome_iff_exists] at hf
        obtain ⟨s, rfl⟩ := hf
        exact .free k s (hs s rfl).1
      | unlockHash v =>
        simp only [Except.ok.injEq, Option.isSome_iff_exists] at hf
        obtain ⟨s, rfl⟩ := hf
        obtain ⟨h1, u, h2, h3⟩ := hs s rfl
        simp only [Wanted, hc0] at h2
        subst h2
        exact .key u k s h1 h3
      | _ => simp at hf
    · simp only [Fulfillment.isFulfilled, hc0] at hf
      cases c0 with
      | multiSig os n =>
        simp only [Except.ok.injEq, decide_eq_true_eq] at hf
        refine .multi os n ps hf (fun p hp => (hs.1 p hp).1) (fun p hp => ?_) hs.2
        obtain ⟨_, u, h2, h3⟩ := hs.1 p hp
        simp only [Wanted, hc0] at h2
        exact ⟨u, h2, h3⟩
      | _ => simp at hf
  cases f with
  | swap k sg sec =>
    cases c with
    | atomicSwap a b h l =>
      simp only [Fulfillment.isFulfilled, Except.ok.injEq, Option.isSome_iff_exists] at hf
      obtain ⟨s, rfl⟩ := hf
      obtain ⟨h1, u, h2, h3⟩ := hs s rfl
      simp only [Wanted, Condition.unwrap] at h2
      refine .swap a b h l k s sec h1 ?_
      rcases h2 with rfl | rfl
      · exact .inl h3
      · exact .inr h3
    | _ => simp [Fulfillment.isFulfilled] at hf
  | single k sg =>
    cases c with
    | atomicSwap => simp [Fulfillment.isFulfilled, Condition.unwrap] at hf
    | lockTime v c0 =>
      refine .locked v c0 _ (inner c0 rfl ?_ (.inl ⟨k, sg, rfl⟩))
      rintro s r h l rfl
      simp [Fulfillment.isFulfilled, Condition.unwrap] at hf
    | nil => exact inner _ rfl (by simp) (.inl ⟨k, sg, rfl⟩)
    | unlockHash v => exact inner _ rfl (by simp) (.inl ⟨k, sg, rfl⟩)
    | multiSig os n => exact inner _ rfl (by simp) (.inl ⟨k, sg, rfl⟩)
  | multi ps =>
    cases c with
    | atomicSwap => simp [Fulfillment.isFulfilled, Condition.unwrap] at hf
    | lockTime v c0 =>
      refine .locked v c0 _ (inner c0 rfl ?_ (.inr ⟨ps, rfl⟩))
      rintro s r h l rfl
      simp [Fulfillment.isFulfilled, Condition.unwrap] at hf
    | nil => exact inner _ rfl (by simp) (.inr ⟨ps, rfl⟩)
    | unlockHash v => exact inner _ rfl (by simp) (.inr ⟨ps, rfl⟩)
    | multiSig os n => exact inner _ rfl (by simp) (.inr ⟨ps, rfl⟩)

/-! ## Requests ask for wanted addresses -/

theorem requests_wanted {H : Bytes → Bytes} {f : Fulfillment} {c : Condition} {rs : List Request} (h : f.requests H c = .ok rs) :
    ∀ r ∈ rs, Wanted c r.owner ∧ r.signed = false := by
  intro r hr
  unfold Wanted
  cases f with
  | single k s =>
    simp only [Fulfillment.requests] at h
    split at h
    · rename_i hc
      simp only [bind, Except.bind, Condition.unlockhash] at h
      split at h
      · cases h
      · simp only [pure, Except.pure, Except.ok.injEq] at h
        subst h
        simp only [hc]
        split at hr
        · simp at hr
        · simp only [List.mem_singleton] at hr; subst hr; exact ⟨rfl, rfl⟩
    · rename_i u hc
      simp only [bind, Except.bind] at h
      split at h
      · cases h
      · simp only [pure, Except.pure, Except.ok.injEq] at h
        subst h
        simp only [hc]
        split at hr
        · simp at hr
        · simp only [List.mem_singleton] at hr; subst hr; exact ⟨rfl, rfl⟩
    · cases h
  | multi ps =>
    simp only [Fulfillment.requests] at h
    split at h
    · rename_i owners n hc
      simp only [bind, Except.bind] at h
      split at h
      · cases h
      · simp only [pure, Except.pure, Except.ok.injEq] at h
        subst h
        obtain ⟨u, hu, rfl⟩ := List.mem_map.1 hr
        simp only [hc]
        exact ⟨(List.mem_filter.1 hu).1, trivial⟩
    · cases h
  | swap k s sec =>
    simp only [Fulfillment.requests] at h
    split at h
    · rename_i a b hs lt
      simp only [bind, Except.bind] at h
      split at h
      · cases h
      · simp only [pure, Except.pure, Except.ok.injEq] at h
        subst h
        obtain ⟨u, hu, rfl⟩ := List.mem_map.1 hr
        have := (List.mem_filter.1 hu).1
        simp only [List.mem_cons, List.not_mem_nil, or_false] at this
        exact ⟨by simpa [Condition.unwrap] using this, rfl⟩
    · cases h

theorem coinRequests_mem {H : Bytes → Bytes} {l : List CoinInput} : ∀ {k : Nat} {rs : List TxRequest}, coinRequests H k l = .ok rs →
    ∀ r ∈ rs, ∃ i ci co, l[i]? = some ci ∧ r.target = .coin (k + i) ∧ ci.parent = some co ∧ Wanted co.condition r.req.owner ∧ r.req.signed = false := by
  induction l with
  | nil =>
    intro k rs h r hr
    simp only [coinRequests, Except.ok.injEq] at h
    subst h; simp at hr
  | cons ci l ih =>
    intro k rs h r hr
    simp only [coinRequests, bind, Except.bind] at h
    split at h
    · cases h
    · rename_i qs hq
      split at h
      · cases h
      · rename_i rest hrest
        simp only [pure, Except.pure, Except.ok.injEq] at h
        subst h
        rcases List.mem_append.1 hr with hr | hr
        · obtain ⟨q, hqm, rfl⟩ := List.mem_map.1 hr
          unfold CoinInput.requests at hq
          split at hq
          · cases hq; simp at hqm
          · rename_i co hco
            have := requests_wanted hq q hqm
            exact ⟨0, ci, co, rfl, rfl, hco, this.1, this.2⟩
        · obtain ⟨i, ci', co, h1, h2, h3⟩ := ih hrest r hr
          exact ⟨i + 1, ci', co, by simpa using h1, by rw [h2]; congr 1; omega, h3⟩

/-- A request is not for a coin input, or it is for one of the addresses the parent condition of that input asks for. -/
def ReqOk (t : Tx) (r : TxRequest) : Prop :=
  r.req.signed = false ∧ ∀ i, r.target = .coin i → ∃ l ci co, t.coinInputs = some l ∧ l[i]? = some ci ∧ ci.parent = some co ∧ Wanted co.condition r.req.owner

theorem stakeRequests_mem {H : Bytes → Bytes} {l : List StakeInput} : ∀ {k : Nat} {rs : List TxRequest}, stakeRequests H k l = .ok rs →
    ∀ r ∈ rs, (∃ i, r.target = .stake i) ∧ r.req.signed = false := by
  induction l with
  | nil =>
    intro k rs h r hr
    simp only [stakeRequests, Except.ok.injEq] at h
    subst h; simp at hr
  | cons ci l ih =>
    intro k rs h r hr
    simp only [stakeRequests, bind, Except.bind] at h
    split at h
    · cases h
    · rename_i qs hq
      split at h
      · cases h
      · rename_i rest hrest
        simp only [pure, Except.pure, Except.ok.injEq] at h
        subst h
        rcases List.mem_append.1 hr with hr | hr
        · obtain ⟨q, hqm, rfl⟩ := List.mem_map.1 hr
          exact ⟨⟨k, rfl⟩, (requests_wanted hq q hqm).2⟩
        · exact ih hrest r hr

theorem selfRequest_mem {H : Bytes → Bytes} {k : Option PublicKey} {s : Option Signature} {spec : Bytes} {rs : List TxRequest}
    (h : selfRequest H k s spec = .ok rs) : ∀ r ∈ rs, r.target = .self spec ∧ r.req.signed = false := by
  intro r hr
  unfold selfRequest at h
  split at h
  · cases h; simp at hr
  · cases h; simp at hr
  · simp only [bind, Except.bind] at h
    split at h
    · cases h
    · simp only [pure, Except.pure, Except.ok.injEq] at h
      subst h
      simp only [List.mem_singleton] at hr
      subst hr
      exact ⟨rfl, rfl⟩

theorem mintRequests_mem {H : Bytes → Bytes} {f : Option Fulfillment} {p : Option Condition} {rs : List TxRequest}
    (h : mintRequests H f p = .ok rs) : ∀ r ∈ rs, r.target = .mint ∧ r.req.signed = false ∧ ∃ c, p = some c ∧ Wanted c r.req.owner := by
  intro r hr
  unfold mintRequests at h
  split at h
  · cases h; simp at hr
  · cases h
  · simp only [bind, Except.bind] at h
    split at h
    · cases h
    · rename_i qs hq
      simp only [pure, Except.pure, Except.ok.injEq] at h
      subst h
      obtain ⟨q, hqm, rfl⟩ := List.mem_map.1 hr
      have := requests_wanted hq q hqm
      exact ⟨rfl, this.2, _, rfl, this.1⟩

theorem extraRequests_mem {H : Bytes → Bytes} {t : Tx} {rs : List TxRequest} (h : t.extraRequests H = .ok rs) :
    ∀ r ∈ rs, r.req.signed = false ∧ (r.target = .mint ∨ ∃ s, r.target = .self s) := by
  intro r hr
  cases t <;> simp only [Tx.extraRequests] at h
  case v128 t => exact ⟨(mintRequests_mem h r hr).2.1, .inl (mintRequests_mem h r hr).1⟩
  case v129 t => exact ⟨(mintRequests_mem h r hr).2.1, .inl (mintRequests_mem h r hr).1⟩
  case v144 t => exact ⟨(selfRequest_mem h r hr).2, .inr ⟨_, (selfRequest_mem h r hr).1⟩⟩
  case v145 t => exact ⟨(selfRequest_mem h r hr).2, .inr ⟨_, (selfRequest_mem h r hr).1⟩⟩
  case v210 t => exact ⟨(selfRequest_mem h r hr).2, .inr ⟨_, (selfRequest_mem h r hr).1⟩⟩
  case v146 t =>
    simp only [bind, Except.bind] at h
    split at h
    · cases h
    · rename_i a ha
      split at h
      · cases h
      · rename_i b hb
        simp only [pure, Except.pure, Except.ok.injEq] at h
        subst h
        rcases List.mem_append.1 hr with hr | hr
        · exact ⟨(selfRequest_mem ha r hr).2, .inr ⟨_, (selfRequest_mem ha r hr).1⟩⟩
        · exact ⟨(selfRequest_mem hb r hr).2, .inr ⟨_, (selfRequest_mem hb r hr).1⟩⟩
  all_goals (cases h; simp at hr)

theorem requests_ok {H : Bytes → Bytes} {t : Tx} {rs : List TxRequest} (h : t.requests H = .ok rs) : ∀ r ∈ rs, ReqOk t r := by
  intro r hr
  unfold Tx.requests at h
  cases hc : t.coinInputs with
  | none => simp [hc, bind, Except.bind] at h
  | some l =>
    simp only [hc, bind, Except.bind] at h
    split at h
    · cases h
    · rename_i a ha
      split at h
      · cases h
      · rename_i b hb
        split at h
        · cases h
        · rename_i c hcx
          simp only [pure, Except.pure, Except.ok.injEq] at h
          subst h
          rcases List.mem_append.1 hr with hr | hr
          · rcases List.mem_append.1 hr with hr | hr
            · obtain ⟨i, ci, co, h1, h2, h3, h4, h5⟩ := coinRequests_mem ha r hr
              refine ⟨h5, fun j hj => ?_⟩
              rw [h2, SigTarget.coin.injEq] at hj
              have : j = i := by omega
              subst this
              exact ⟨l, ci, co, hc, h1, h3, h4⟩
            · obtain ⟨⟨i, h1⟩, h2⟩ := stakeRequests_mem hb r hr
              exact ⟨h2, fun j hj => by rw [h1] at hj; cases hj⟩
          · obtain ⟨h1, h2⟩ := extraRequests_mem hcx r hr
            refine ⟨h1, fun j hj => ?_⟩
            rcases h2 with h2 | ⟨s, h2⟩ <;> (rw [h2] at hj; cases hj)

/-! ## The effect of a signature on the coin inputs -/

theorem sign_coin {H : Bytes → Bytes} {t : Tx} {l : List CoinInput} (hl : t.coinInputs = some l) (i : Nat) (k : KeyArg) (sig : BVal)
    (hok : (t.sign H (.coin i) k sig).2 = none) :
    (t.sign H (.coin i) k sig).1.coinInputs = some (modifyAt l i (·.sign k sig)).1 ∧ (modifyAt l i (·.sign k sig)).2 = none := by
  cases t <;> simp only [Tx.coinInputs, Option.some.injEq] at hl <;> first
    | (subst hl; exact ⟨rfl, hok⟩)
    | (simp only [Tx.sign, hl] at hok ⊢; exact ⟨rfl, hok⟩)
    | (simp [Tx.sign] at hok)

theorem sign_other {H : Bytes → Bytes} {t : Tx} (tgt : SigTarget) (h : ∀ i, tgt ≠ .coin i) (k : KeyArg) (sig : BVal) :
    (t.sign H tgt k sig).1.coinInputs = t.coinInputs := by
  cases tgt with
  | coin i => exact absurd rfl (h i)
  | stake i => cases t <;> rfl
  | mint => cases t <;> rfl
  | self s =>
    cases t with
    | v146 t => exact (signSelf_frame H t k sig).2.2.2.2.1
    | _ => simp only [Tx.sign] <;> first | rfl | (split <;> rfl)

/-! ## Signing changes signatures only -/

theorem bareInput_sign (k : KeyArg) (sig : BVal) (l : List CoinInput) (i : Nat) :
    (modifyAt l i (·.sign k sig)).1.map bareInput = l.map bareInput := modifyAt_map _ _ (fun _ => rfl) l i
theorem bareStake_sign (k : KeyArg) (sig : BVal) (l : List StakeInput) (i : Nat) :
    (modifyAt l i (·.sign k sig)).1.map bareStake = l.map bareStake := modifyAt_map _ _ (fun _ => rfl) l i

theorem signSelf_bare (H : Bytes → Bytes) (t : TxV146) (k : KeyArg) (sig : BVal) :
    bare (.v146 (t.signSelf H k sig).1) = bare (.v146 t) := by
  unfold TxV146.signSelf
  cases k with
  | key k =>
    simp only
    cases ht : t.signSelfRes H k sig with
    | error e => rfl
    | ok t' =>
      simp only [TxV146.signSelfRes, bind, Except.bind] at ht
      split at ht
      · cases ht
      · split at ht
        · cases ht
        · split at ht
          · split at ht
            · cases ht
            · cases ht; rfl
          · split at ht
            · cases ht
            · split at ht
              · split at ht
                · cases ht
                · cases ht; rfl
              · cases ht
  | _ => rfl

theorem sign_bare (H : Bytes → Bytes) (t : Tx) (tgt : SigTarget) (k : KeyArg) (sig : BVal) : bare (t.sign H tgt k sig).1 = bare t := by
  unfold Tx.sign
  split
  all_goals first
    | rfl
    | (simp [bare, bareInput_sign]; done)
    | (simp [bare, bareStake_sign]; done)
    | exact signSelf_bare ..
    | (split <;> first | rfl | simp [bare, bareInput_sign, *])

/-! ## The signatures besides those of the inputs -/

theorem bare_mint (t : Tx) : (mintPart (bare t)).map (·.1) = (mintPart t).map (·.1) := by cases t <;> rfl
theorem bare_selfs (t : Tx) : (selfSignatures (bare t)).map (fun p => (p.1, p.2.1)) = (selfSignatures t).map (fun p => (p.1, p.2.1)) := by
  cases t <;> rfl

/-- Whatever the transaction itself carries as signatures is genuine. -/
def SoundExt (W : World) (t0 t : Tx) : Prop :=
  (∀ p ∈ selfSignatures t, ∀ s, p.2.2 = some s → ∃ k, p.2.1 = some k ∧ SelfSigned W t0 p.1 k s) ∧
  ∀ c f, mintPart t = some (some c, some f) → Sound W t0 .mint c f

/-- A request for the mint fulfillment is for one of the addresses of the mint condition, a request of the transaction itself for one of its
keys. -/
def ReqExt (H : Bytes → Bytes) (t : Tx) (r : TxRequest) : Prop :=
  (r.target = .mint → ∃ c, (mintPart t).map (·.1) = some (some c) ∧ Wanted c r.req.owner) ∧
  ∀ spec, r.target = .self spec → r.req.owner.type ≠ 0 ∧ ∃ k, (spec, some k) ∈ (selfSignatures t).map (fun p => (p.1, p.2.1)) ∧ k.unlockhash H = .ok r.req.owner

theorem bare_distinct {H : Bytes → Bytes} {t t' : Tx} (h : bare t' = bare t) (hd : DistinctParties H t) : DistinctParties H t' := by
  intro m hm u v hu hv
  subst hm
  cases t <;> simp only [bare, reduceCtorEq] at h
  rename_i m0
  simp only [Tx.v146.injEq, TxV146.mk.injEq] at h
  exact hd m0 rfl u v (by rw [← h.2.2.2.2.2.2.2.2.1]; exact hu) (by rw [← h.2.2.2.2.2.2.2.2.2]; exact hv)

theorem keyAddress_type {H : Bytes → Bytes} {k : PublicKey} {u : UnlockHash} (h : k.unlockhash H = .ok u) : u.type = 1 := by
  unfold PublicKey.unlockhash at h
  simp only [bind, Except.bind] at h
  split at h
  · cases h
  · split at h
    · cases h
    · cases h; rfl

theorem selfRequest_ext {H : Bytes → Bytes} {k : Option PublicKey} {s : Option Signature} {spec : Bytes} {rs : List TxRequest}
    (h : selfRequest H k s spec = .ok rs) : ∀ r ∈ rs, r.target = .self spec ∧ ∃ k', k = some k' ∧ k'.unlockhash H = .ok r.req.owner := by
  intro r hr
  unfold selfRequest at h
  split at h
  · cases h; simp at hr
  · cases h; simp at hr
  · simp only [bind, Except.bind] at h
    split at h
    · cases h
    · rename_i u hu
      simp only [pure, Except.pure, Except.ok.injEq] at h
      subst h
      simp only [List.mem_singleton] at hr
      subst hr
      exact ⟨rfl, _, rfl, hu⟩

theorem extraRequests_ext {H : Bytes → Bytes} {t : Tx} {rs : List TxRequest} (h : t.extraRequests H = .ok rs) : ∀ r ∈ rs, ReqExt H t r := by
  intro r hr
  have one : ∀ {k : Option PublicKey} {s : Option Signature} {spec : Bytes} {qs : List TxRequest}, selfRequest H k s spec = .ok qs → r ∈ qs →
      (spec, k) ∈ (selfSignatures t).map (fun p => (p.1, p.2.1)) → ReqExt H t r := by
    intro k s spec qs hq hrq hmem
    obtain ⟨h1, k', rfl, h2⟩ := selfRequest_ext hq r hrq
    refine ⟨fun e => by (rw [h1] at e; cases e), fun spec' e => ?_⟩
    rw [h1] at e; cases e
    exact ⟨by rw [keyAddress_type h2]; decide, k', hmem, h2⟩
  have mint : ∀ {f : Option Fulfillment} {p : Option Condition} {qs : List TxRequest}, mintRequests H f p = .ok qs → r ∈ qs →
      (mintPart t).map (·.1) = some p → ReqExt H t r := by
    intro f p qs hq hrq hp
    obtain ⟨h1, _, c, rfl, h2⟩ := mintRequests_mem hq r hrq
    exact ⟨fun _ => ⟨c, hp, h2⟩, fun spec e => by (rw [h1] at e; cases e)⟩
  cases t <;> simp only [Tx.extraRequests] at h
  case v128 t => exact mint h hr rfl
  case v129 t => exact mint h hr rfl
  case v144 t => exact one h hr (by simp [selfSignatures])
  case v145 t => exact one h hr (by simp [selfSignatures])
  case v210 t => exact one h hr (by simp [selfSignatures])
  case v146 t =>
    simp only [bind, Except.bind] at h
    split at h
    · cases h
    · rename_i a ha
      split at h
      · cases h
      · rename_i b hb
        simp only [pure, Except.pure, Except.ok.injEq] at h
        subst h
        rcases List.mem_append.1 hr with hr | hr
        · exact one ha hr (by simp [selfSignatures])
        · exact one hb hr (by simp [selfSignatures])
  all_goals (cases h; simp at hr)

theorem setTxSignature_some {b : Bytes} {r : Option Signature} (h : setTxSignature (.bytes b) = .ok r) : ∃ s, r = some s ∧ s.value = b := by
  simp only [setTxSignature, bind, Except.bind] at h
  split at h
  · cases h
  · rename_i s hs
    cases h
    exact ⟨s, rfl, sigNew_bytes hs⟩

theorem selfSign_bytes {H : Bytes → Bytes} {k : Option PublicKey} {pk : PublicKey} {b : Bytes} {r : Option Signature}
    (h : selfSign H k (.key pk) (.bytes b) = .ok r) : ∃ s k' u, k = some k' ∧ r = some s ∧ s.value = b ∧ k'.unlockhash H = .ok u ∧ pk.unlockhash H = .ok u := by
  cases k with
  | none => cases h
  | some k' =>
    simp only [selfSign, bind, Except.bind, throw, throwThe, MonadExceptOf.throw] at h
    split at h
    · cases h
    · rename_i a ha
      split at h
      · cases h
      · rename_i c hc
        split at h
        · cases h
        · rename_i hac
          obtain ⟨s, rfl, hs⟩ := setTxSignature_some h
          have : a = c := Classical.not_not.1 hac
          subst this
          exact ⟨s, k', a, rfl, rfl, hs, ha, hc⟩

theorem sign_ext {W : World} {t0 t t' : Tx} {r : TxRequest} {pk : PublicKey} {pre : Bytes} (hext : SoundExt W t0 t) (hr : ReqExt W.H t r)
    (hd : DistinctParties W.H t) (hsf : SignsFor W.H pk r.req.owner) (hpre : t0.preimage W.H r.target pk = .ok pre)
    (hsign : t.sign W.H r.target (.key pk) (.bytes (W.sign pk (W.H pre))) = (t', none)) : SoundExt W t0 t' := by
  obtain ⟨he1, he2⟩ := hext
  cases htgt : r.target with
  | coin i =>
    rw [htgt] at hsign
    have hb : selfSignatures t' = selfSignatures t ∧ mintPart t' = mintPart t := by
      cases t <;> simp only [Tx.sign] at hsign
      all_goals first
        | (cases hsign; exact ⟨rfl, rfl⟩)
        | (split at hsign <;> cases hsign <;> exact ⟨rfl, rfl⟩)
        | (simp at hsign; done)
        | (obtain ⟨h1, _⟩ := Prod.mk.inj hsign; subst h1; exact ⟨rfl, rfl⟩)
        | (split at hsign <;> obtain ⟨h1, _⟩ := Prod.mk.inj hsign <;> subst h1 <;> exact ⟨rfl, rfl⟩)
    exact ⟨by rw [hb.1]; exact he1, by rw [hb.2]; exact he2⟩
  | stake i =>
    rw [htgt] at hsign
    have hb : selfSignatures t' = selfSignatures t ∧ mintPart t' = mintPart t := by
      cases t <;> simp only [Tx.sign] at hsign
      all_goals first
        | (simp at hsign; done)
        | (obtain ⟨h1, _⟩ := Prod.mk.inj hsign; subst h1; exact ⟨rfl, rfl⟩)
    exact ⟨by rw [hb.1]; exact he1, by rw [hb.2]; exact he2⟩
  | mint =>
    rw [htgt] at hsign hpre
    obtain ⟨c, hc, hw⟩ := hr.1 htgt
    have key : ∀ (f : Option Fulfillment), mintPart t = some (some c, f) →
        (signMint f (.key pk) (.bytes (W.sign pk (W.H pre)))).2 = none →
        ∀ f', (signMint f (.key pk) (.bytes (W.sign pk (W.H pre)))).1 = some f' → Sound W t0 .mint c f' := by
      intro f hm h2 f' h1
      cases f with
      | none => simp [signMint] at h2
      | some f =>
        simp only [signMint, Option.some.injEq] at h1 h2
        exact sound_add (he2 c f hm) hpre hw hsf (Prod.ext h1 h2)
    cases t <;> simp only [Tx.sign] at hsign
    case v128 m =>
      obtain ⟨h1, h2⟩ := Prod.mk.inj hsign
      subst h1
      simp only [mintPart, Option.map_some, Option.some.injEq] at hc
      refine ⟨by simp [selfSignatures], fun c' f' h => ?_⟩
      simp only [mintPart, Option.some.injEq, Prod.mk.injEq] at h
      rw [hc, Option.some.injEq] at h
      rw [← h.1]
      exact key m.mintFulfillment (by simp [mintPart, hc]) h2 f' h.2
    case v129 m =>
      obtain ⟨h1, h2⟩ := Prod.mk.inj hsign
      subst h1
      simp only [mintPart, Option.map_some, Option.some.injEq] at hc
      refine ⟨by simp [selfSignatures], fun c' f' h => ?_⟩
      simp only [mintPart, Option.some.injEq, Prod.mk.injEq] at h
      rw [hc, Option.some.injEq] at h
      rw [← h.1]
      exact key m.mintFulfillment (by simp [mintPart, hc]) h2 f' h.2
    all_goals simp at hsign
  | self spec =>
    rw [htgt] at hsign hpre
    obtain ⟨hnz, k, hk, hku⟩ := hr.2 spec htgt
    have own : HasAddress W.H pk (r.req.owner.str W.H) := by
      rcases hsf with h | h
      · exact absurd h hnz
      · exact h
    have key : ∀ (k0 : Option PublicKey) (s' : Option Signature), selfSign W.H k0 (.key pk) (.bytes (W.sign pk (W.H pre))) = .ok s' →
        ∀ s, s' = some s → ∃ k', k0 = some k' ∧ SelfSigned W t0 spec k' s := by
      intro k0 s' hss s hs
      obtain ⟨s1, k', u, e1, e2, e3, e4, e5⟩ := selfSign_bytes hss
      rw [hs, Option.some.injEq] at e2
      subst e2
      exact ⟨k', e1, pk, u, e4, e5, pre, hpre, e3⟩
    cases t <;> simp only [Tx.sign] at hsign
    case v144 m =>
      split at hsign
      · rename_i s' hs'
        cases hsign
        simp only [selfSignatures, List.map_cons, List.map_nil, List.mem_singleton, Prod.mk.injEq] at hk
        refine ⟨?_, by simp [mintPart]⟩
        intro p hp s hs
        simp only [selfSignatures, List.mem_singleton] at hp
        subst hp
        rw [← hk.1]
        exact key _ _ hs' s hs
      · simp at hsign
    case v145 m =>
      split at hsign
      · rename_i s' hs'
        cases hsign
        simp only [selfSignatures, List.map_cons, List.map_nil, List.mem_singleton, Prod.mk.injEq] at hk
        refine ⟨?_, by simp [mintPart]⟩
        intro p hp s hs
        simp only [selfSignatures, List.mem_singleton] at hp
        subst hp
        rw [← hk.1]
        exact key _ _ hs' s hs
      · simp at hsign
    case v210 m =>
      split at hsign
      · rename_i s' hs'
        cases hsign
        simp only [selfSignatures, List.map_cons, List.map_nil, List.mem_singleton, Prod.mk.injEq] at hk
        refine ⟨?_, by simp [mintPart]⟩
        intro p hp s hs
        simp only [selfSignatures, List.mem_singleton] at hp
        subst hp
        rw [← hk.1]
        exact key _ _ hs' s hs
      · simp at hsign
    case v146 m =>
      simp only [TxV146.signSelf] at hsign
      split at hsign
      · rename_i m' hm'
        cases hsign
        obtain ⟨u', hu', hstr⟩ := own
        simp only [selfSignatures, List.map_cons, List.map_nil, List.mem_cons, List.not_mem_nil, or_false, Prod.mk.injEq] at hk
        simp only [TxV146.signSelfRes, hu', bind, Except.bind, throw, throwThe, MonadExceptOf.throw] at hm'
        split at hm'
        · cases hm'
        · rename_i su hsu
          split at hm'
          · rename_i hus
            split at hm'
            · cases hm'
            · rename_i s' hs'
              cases hm'
              obtain ⟨s1, rfl, hv⟩ := setTxSignature_some hs'
              refine ⟨?_, by simp [mintPart]⟩
              intro p hp s hs
              simp only [selfSignatures, List.mem_cons, List.not_mem_nil, or_false] at hp
              rcases hp with rfl | rfl
              · simp only [Option.some.injEq] at hs
                subst hs
                rcases hk with ⟨rfl, hk⟩ | ⟨rfl, hk⟩
                · refine ⟨k, hk.symm, pk, u', ?_, hu', pre, hpre, hv⟩
                  rw [← hk] at hsu
                  rw [hus]; exact hsu
                · exfalso
                  refine hd m rfl su r.req.owner hsu (by rw [← hk]; exact hku) ?_
                  rw [← hus]; exact hstr
              · exact he1 _ (by simp [selfSignatures]) s hs
          · rename_i hus
            split at hm'
            · cases hm'
            · rename_i ru hru
              split at hm'
              · rename_i hur
                split at hm'
                · cases hm'
                · rename_i s' hs'
                  cases hm'
                  obtain ⟨s1, rfl, hv⟩ := setTxSignature_some hs'
                  refine ⟨?_, by simp [mintPart]⟩
                  intro p hp s hs
                  simp only [selfSignatures, List.mem_cons, List.not_mem_nil, or_false] at hp
                  rcases hp with rfl | rfl
                  · exact he1 _ (by simp [selfSignatures]) s hs
                  · simp only [Option.some.injEq] at hs
                    subst hs
                    rcases hk with ⟨rfl, hk⟩ | ⟨rfl, hk⟩
                    · exfalso
                      refine hd m rfl r.req.owner ru (by rw [← hk]; exact hku) hru ?_
                      rw [← hur]; exact hstr.symm
                    · refine ⟨k, hk.symm, pk, u', ?_, hu', pre, hpre, hv⟩
                      rw [← hk] at hru
                      rw [hur]; exact hru
              · cases hm'
      · simp at hsign
    all_goals simp at hsign

/-! ## The invariant of the signing loop -/

/-- The transaction is the original one apart from genuine signatures. -/
structure Inv (W : World) (t0 t : Tx) : Prop where
  same : SameSigned W.H t0 t
  legacy : ¬ IsLegacy t
  bare : bare t = bare t0
  ext : SoundExt W t0 t
  coins : ∀ l0, t0.coinInputs = some l0 → ∃ l, t.coinInputs = some l ∧ l.map (·.parent) = l0.map (·.parent) ∧
    ∀ i ci, l[i]? = some ci → ∀ co, ci.parent = some co → Sound W t0 (.coin i) co.condition ci.fulfillment

theorem reqExt_bare {H : Bytes → Bytes} {t t' : Tx} {r : TxRequest} (h : bare t' = bare t) (hr : ReqExt H t r) : ReqExt H t' r := by
  unfold ReqExt at hr ⊢
  rw [← bare_mint t', ← bare_selfs t', h, bare_mint, bare_selfs]
  exact hr

theorem signOne_inv {W : World} {t0 t t' : Tx} {r : TxRequest} {b : Bool} (hd : DistinctParties W.H t0) (hi : Inv W t0 t) (hr : ReqOk t0 r)
    (hrx : ReqExt W.H t0 r) (h : W.signOne t r = .ok (t', b)) : Inv W t0 t' := by
  unfold World.signOne at h
  split at h
  · cases h; exact hi
  · rename_i pk hpk
    split at h
    · cases h
    · rename_i hsh hh
      unfold World.inputHash at hh
      simp only [bind, Except.bind] at hh
      cases hp : t.preimage W.H r.target pk with
      | error e => rw [hp] at hh; cases hh
      | ok pre =>
        rw [hp] at hh
        have hv := hashNew_bytes hh
        split at h
        · rename_i q t1 hq
          cases h
          unfold Request.fulfillCb at hq
          rw [if_neg (by simp [hr.1])] at hq
          simp only at hq
          cases hu : pk.unlockhash W.H with
          | error e => rw [hu] at hq; simp at hq
          | ok u =>
            rw [hu] at hq
            simp only at hq
            split at hq
            · simp at hq
            · rename_i hown
              have hsf : SignsFor W.H pk r.req.owner := by
                by_cases h0 : r.req.owner.type = 0
                · exact .inl h0
                · refine .inr ⟨u, hu, ?_⟩
                  exact Classical.byContradiction fun hne => hown ⟨h0, fun e => hne e.symm⟩
              split at hq
              · simp at hq
              · rename_i t2 hs2
                cases hq
                have hsign : (t.sign W.H r.target (.key pk) (.bytes (W.sign pk hsh.value))) = (t', none) := hs2
                rw [hv] at hsign
                have h1 := sign_same W.H t hi.legacy r.target (.key pk) (.bytes (W.sign pk (W.H pre)))
                rw [hsign] at h1
                refine ⟨hi.same.trans h1, h1.legacy hi.legacy, ?_, ?_, ?_⟩
                · exact ((congrArg (fun x => TF.Spec.bare x.1) hsign).symm.trans (sign_bare ..)).trans hi.bare
                · refine sign_ext hi.ext (reqExt_bare hi.bare hrx) (bare_distinct hi.bare hd) hsf ?_ hsign
                  rw [← hi.same.preimage]; exact hp
                intro l0 hl0
                obtain ⟨l, hl, hpar, hsound⟩ := hi.coins l0 hl0
                by_cases hc : ∃ i, r.target = .coin i
                · obtain ⟨i, htgt⟩ := hc
                  have hsc := sign_coin (H := W.H) hl i (.key pk) (.bytes (W.sign pk (W.H pre))) (by rw [← htgt, hsign])
                  rw [← htgt, hsign] at hsc
                  obtain ⟨hsc1, hsc2⟩ := hsc
                  refine ⟨_, hsc1, ?_, ?_⟩
                  · refine Eq.trans (modifyAt_map (CoinInput.parent) (fun x => x.sign (.key pk) (.bytes (W.sign pk (W.H pre)))) (fun _ => rfl) ..) hpar
                  · intro j cj hj co hco
                    obtain ⟨l0', ci0, co0, e1, e2, e3, e4⟩ := hr.2 i htgt
                    rw [hl0, Option.some.injEq] at e1
                    subst e1
                    unfold modifyAt at hj hsc2
                    cases hli : l[i]? with
                    | none => simp [hli] at hsc2
                    | some ci =>
                      simp only [hli] at hj hsc2
                      by_cases hij : i = j
                      · subst hij
                        have hlt : i < l.length := (List.getElem?_eq_some_iff.1 hli).1
                        rw [List.getElem?_set_self hlt, Option.some.injEq] at hj
                        have hparent : ci.parent = some co := by rw [← hj] at hco; exact hco
                        have hp0 : ci0.parent = ci.parent := by
                          have := congrArg (·[i]?) hpar
                          simp only [List.getElem?_map, hli, e2, Option.map_some, Option.some.injEq] at this
                          exact this.symm
                        rw [e3, hparent, Option.some.injEq] at hp0
                        subst hp0
                        have hpre0 : t0.preimage W.H (.coin i) pk = .ok pre := by
                          rw [← hi.same.preimage, ← htgt]; exact hp
                        have hs := hsound i ci hli co0 hparent
                        rw [← hj]
                        refine sound_add hs hpre0 e4 hsf (f' := (ci.sign (.key pk) (.bytes (W.sign pk (W.H pre)))).1.fulfillment) ?_
                        have : (ci.fulfillment.signatureAdd (.key pk) (.bytes (W.sign pk (W.H pre)))).2 = none := hsc2
                        exact Prod.ext rfl this
                      · rw [List.getElem?_set_ne hij] at hj
                        exact hsound j cj hj co hco
                · have := sign_other (H := W.H) (t := t) r.target (fun i hi => hc ⟨i, hi⟩) (.key pk) (.bytes (W.sign pk (W.H pre)))
                  rw [hsign] at this
                  exact ⟨l, by rw [this]; exact hl, hpar, hsound⟩
        · cases h

theorem signAll_inv {W : World} {t0 : Tx} {rs : List TxRequest} (hd : DistinctParties W.H t0) (hr : ∀ r ∈ rs, ReqOk t0 r ∧ ReqExt W.H t0 r) : ∀ {t t' : Tx} {n : Nat}, Inv W t0 t →
    W.signAll rs t = .ok (t', n) → Inv W t0 t' := by
  induction rs with
  | nil => intro t t' n hi h; cases h; exact hi
  | cons r rs ih =>
    intro t t' n hi h
    simp only [World.signAll, bind, Except.bind] at h
    split at h
    · cases h
    · rename_i x hx
      split at h
      · cases h
      · rename_i y hy
        simp only [pure, Except.pure, Except.ok.injEq, Prod.mk.injEq] at h
        rw [← h.1]
        exact ih (fun q hq => hr q (List.mem_cons_of_mem _ hq)) (signOne_inv hd hi (hr r List.mem_cons_self).1 (hr r List.mem_cons_self).2 hx) hy

theorem coinRequests_target {H : Bytes → Bytes} {l : List CoinInput} {k : Nat} {rs : List TxRequest} (h : coinRequests H k l = .ok rs) :
    ∀ r ∈ rs, ∃ i, r.target = .coin i := by
  intro r hr
  obtain ⟨i, _, _, _, h2, _⟩ := coinRequests_mem h r hr
  exact ⟨_, h2⟩

theorem requests_ext {H : Bytes → Bytes} {t : Tx} {rs : List TxRequest} (h : t.requests H = .ok rs) : ∀ r ∈ rs, ReqExt H t r := by
  intro r hr
  unfold Tx.requests at h
  cases hc : t.coinInputs with
  | none => simp [hc, bind, Except.bind] at h
  | some l =>
    simp only [hc, bind, Except.bind] at h
    split at h
    · cases h
    · rename_i a ha
      split at h
      · cases h
      · rename_i b hb
        split at h
        · cases h
        · rename_i c hcx
          simp only [pure, Except.pure, Except.ok.injEq] at h
          subst h
          rcases List.mem_append.1 hr with hr | hr
          · rcases List.mem_append.1 hr with hr | hr
            · obtain ⟨i, hi⟩ := coinRequests_target ha r hr
              exact ⟨fun e => by (rw [hi] at e; cases e), fun s e => by (rw [hi] at e; cases e)⟩
            · obtain ⟨⟨i, hi⟩, _⟩ := stakeRequests_mem hb r hr
              exact ⟨fun e => by (rw [hi] at e; cases e), fun s e => by (rw [hi] at e; cases e)⟩
          · exact extraRequests_ext hcx r hr

/-- A fulfillment without any signature. -/
def Fresh (f : Fulfillment) : Prop := f = .single .default none ∨ f = .multi [] ∨ ∃ sec, f = .swap .default none sec

theorem Fresh.sound {W : World} {t : Tx} {tgt : SigTarget} {c : Condition} {f : Fulfillment} (h : Fresh f) : Sound W t tgt c f := by
  rcases h with e | e | ⟨sec, e⟩
  · rw [e]; intro s hs; cases hs
  · rw [e]; exact ⟨by simp, by simp⟩
  · rw [e]; intro s hs; cases hs

/-- A transaction that carries no signature yet. -/
structure Unsigned (t : Tx) : Prop where
  legacy : ¬ IsLegacy t
  coins : ∀ l, t.coinInputs = some l → ∀ ci ∈ l, Fresh ci.fulfillment
  selfs : ∀ p ∈ selfSignatures t, p.2.2 = none
  mint : ∀ c f, mintPart t = some (c, some f) → Fresh f

theorem Unsigned.inv {W : World} {t : Tx} (h : Unsigned t) : Inv W t t := by
  refine ⟨.refl _ _, h.legacy, rfl, ⟨?_, fun c f hm => (h.mint _ f hm).sound⟩, fun l0 hl0 => ⟨l0, hl0, rfl, ?_⟩⟩
  · intro p hp s hs
    rw [h.selfs p hp] at hs; cases hs
  · intro i ci hci co _
    exact (h.coins l0 hl0 ci (List.mem_of_getElem? hci)).sound

theorem signNew_inv {W : World} {t t' : Tx} (hd : DistinctParties W.H t) (hu : Unsigned t) (h : W.signNew t = .ok t') : Inv W t t' := by
  unfold World.signNew at h
  simp only [bind, Except.bind] at h
  split at h
  · cases h
  · rename_i rs hrs
    split at h
    · cases h
    · split at h
      · cases h
      · rename_i x hx
        cases h
        exact signAll_inv hd (fun r hr => ⟨requests_ok hrs r hr, requests_ext hrs r hr⟩) hu.inv hx

theorem unlocks_same {W : World} {t0 t : Tx} (hs : SameSigned W.H t0 t) {tgt : SigTarget} {c : Condition} {f : Fulfillment}
    (hu : Unlocks W t0 tgt c f) : Unlocks W t tgt c f := by
  have hown : ∀ k s, OwnSig W t0 tgt k s → OwnSig W t tgt k s := by
    rintro k s ⟨b, h1, h2⟩
    exact ⟨b, by rw [hs.preimage]; exact h1, h2⟩
  induction hu with
  | free k s g => exact .free k s (hown _ _ g)
  | key u k s g o => exact .key u k s (hown _ _ g) o
  | multi os n ps e g o d => exact .multi os n ps e (fun p hp => hown _ _ (g p hp)) o d
  | swap a b hs lt k s sec g o => exact .swap a b hs lt k s sec (hown _ _ g) o
  | locked v c f _ ih => exact .locked v c f ih

/-- The extra signatures are there. -/
theorem extra_signed {t : Tx} (h : t.extraFulfilled = .ok true) : (∀ p ∈ selfSignatures t, ∃ s, p.2.2 = some s) ∧
    ∀ p, mintPart t = some p → ∃ c f, p = (some c, some f) ∧ f.isFulfilled c = .ok true := by
  have mint : ∀ (f : Option Fulfillment) (p : Option Condition), mintFulfilled f p = .ok true → ∃ c f', (p, f) = (some c, some f') ∧ f'.isFulfilled c = .ok true := by
    intro f p h
    obtain ⟨c, f', rfl, rfl, h'⟩ := (mintFulfilled_true f p).1 h
    exact ⟨c, f', rfl, h'⟩
  cases t <;> simp only [Tx.extraFulfilled, Except.ok.injEq] at h
  case v128 m => exact ⟨by simp [selfSignatures], fun p hp => by cases hp; exact mint _ _ h⟩
  case v129 m => exact ⟨by simp [selfSignatures], fun p hp => by cases hp; exact mint _ _ h⟩
  case v144 m => exact ⟨by simpa [selfSignatures, Option.isSome_iff_exists] using h, by simp [mintPart]⟩
  case v145 m => exact ⟨by simpa [selfSignatures, Option.isSome_iff_exists] using h, by simp [mintPart]⟩
  case v146 m => exact ⟨by simpa [selfSignatures, Option.isSome_iff_exists] using h, by simp [mintPart]⟩
  case v210 m => exact ⟨by simpa [selfSignatures, Option.isSome_iff_exists] using h, by simp [mintPart]⟩
  all_goals exact ⟨by simp [selfSignatures], by simp [mintPart]⟩

/-- A fulfilled transaction with genuine signatures only is fully signed. -/
theorem Inv.signed {W : World} {t0 t : Tx} (hi : Inv W t0 t) (h : t.isFulfilled = .ok true) (h0 : t0.coinInputs ≠ none) : FullySigned W t := by
  obtain ⟨l0, hl0⟩ := Option.ne_none_iff_exists'.1 h0
  obtain ⟨l, hl, _, hs⟩ := hi.coins l0 hl0
  unfold Tx.isFulfilled at h
  simp only [hl, bind, Except.bind] at h
  split at h
  · cases h
  · rename_i e he
    obtain ⟨he', hall⟩ := (reduceFulfilled_true l _).1 h
    subst he'
    obtain ⟨hx1, hx2⟩ := extra_signed he
    refine ⟨⟨l, hl, fun i ci hci => ?_⟩, ?_, ?_⟩
    · have := hall ci (List.mem_of_getElem? hci)
      unfold CoinInput.isFulfilled at this
      cases hp : ci.parent with
      | none => simp [hp] at this
      | some co =>
        simp only [hp] at this
        exact ⟨co, rfl, unlocks_same hi.same (sound_unlocks (hs i ci hci co hp) this)⟩
    · intro p hp
      obtain ⟨s, hs'⟩ := hx1 p hp
      obtain ⟨k, hk, pk, u, g1, g2, b, g3, g4⟩ := hi.ext.1 p hp s hs'
      exact ⟨k, s, Prod.ext hk hs', pk, u, g1, g2, b, by rw [hi.same.preimage]; exact g3, g4⟩
    · intro p hp
      obtain ⟨c, f, rfl, hf⟩ := hx2 p hp
      exact ⟨c, f, rfl, unlocks_same hi.same (sound_unlocks (hi.ext.2 c f hp) hf)⟩

/-- A condition that is unlocked is fulfilled. -/
theorem unlocks_fulfilled {W : World} {t : Tx} {tgt : SigTarget} {c : Condition} {f : Fulfillment} (h : Unlocks W t tgt c f) :
    ∀ b, f.isFulfilled c = .ok b → b = true := by
  induction h with
  | free k s g => intro b hb; simp only [Fulfillment.isFulfilled, Condition.unwrap] at hb; cases hb; rfl
  | key u k s g o => intro b hb; simp only [Fulfillment.isFulfilled, Condition.unwrap] at hb; cases hb; rfl
  | multi os n ps e g o d =>
    intro b hb
    simp only [Fulfillment.isFulfilled, Condition.unwrap, Except.ok.injEq] at hb
    rw [← hb]; simpa using e
  | swap a b hs lt k s sec g o => intro b hb; simp only [Fulfillment.isFulfilled] at hb; cases hb; rfl
  | locked v c f hc ih =>
    intro b hb
    cases hc with
    | free => simp only [Fulfillment.isFulfilled, Condition.unwrap] at hb; cases hb; rfl
    | key => simp only [Fulfillment.isFulfilled, Condition.unwrap] at hb; cases hb; rfl
    | multi os n ps e =>
      simp only [Fulfillment.isFulfilled, Condition.unwrap, Except.ok.injEq] at hb
      rw [← hb]; simpa using e
    | swap => simp [Fulfillment.isFulfilled] at hb
    | locked v' c' f' hc' =>
      cases f <;> simp [Fulfillment.isFulfilled, Condition.unwrap] at hb

theorem reduceFulfilled_false {l : List CoinInput} (h : ∀ ci ∈ l, ∀ b, ci.isFulfilled = .ok b → b = true) : reduceFulfilled true l ≠ .ok false := by
  induction l with
  | nil => simp [reduceFulfilled]
  | cons ci l ih =>
    simp only [reduceFulfilled, bind, Except.bind]
    cases hc : ci.isFulfilled with
    | error e => simp
    | ok b =>
      rw [h ci List.mem_cons_self b hc]
      exact ih fun cj hcj => h cj (List.mem_cons_of_mem _ hcj)

/-- A fully signed transaction is not reported unfulfilled. -/
theorem signed_fulfilled {W : World} {t : Tx} (h : FullySigned W t) : t.isFulfilled ≠ .ok false := by
  obtain ⟨⟨l, hl, hu⟩, hs, hm⟩ := h
  intro hf
  unfold Tx.isFulfilled at hf
  simp only [hl, bind, Except.bind] at hf
  have hx : ∀ b, t.extraFulfilled = .ok b → b = true := by
    intro b hb
    have mint : ∀ (f : Option Fulfillment) (p : Option Condition), (∀ q, some (p, f) = some q → ∃ c f, q = (some c, some f) ∧ Unlocks W t .mint c f) →
        mintFulfilled f p = .ok b → b = true := by
      intro f p hq hb
      obtain ⟨c, f', e, hu⟩ := hq _ rfl
      cases e
      exact unlocks_fulfilled hu b hb
    cases t <;> simp only [Tx.extraFulfilled, Except.ok.injEq] at hb
    case v128 m => exact mint _ _ hm hb
    case v129 m => exact mint _ _ hm hb
    case v144 m =>
      obtain ⟨k, s, e, _⟩ := hs _ List.mem_cons_self
      simp only [Prod.mk.injEq] at e; rw [← hb, e.2]; rfl
    case v145 m =>
      obtain ⟨k, s, e, _⟩ := hs _ List.mem_cons_self
      simp only [Prod.mk.injEq] at e; rw [← hb, e.2]; rfl
    case v146 m =>
      obtain ⟨k, s, e, _⟩ := hs _ List.mem_cons_self
      obtain ⟨k', s', e', _⟩ := hs _ (List.mem_cons_of_mem _ List.mem_cons_self)
      simp only [Prod.mk.injEq] at e e'; rw [← hb, e.2, e'.2]; rfl
    case v210 m =>
      obtain ⟨k, s, e, _⟩ := hs _ List.mem_cons_self
      simp only [Prod.mk.injEq] at e; rw [← hb, e.2]; rfl
    all_goals exact hb.symm
  split at hf
  · cases hf
  · rename_i b hb
    rw [hx b hb] at hf
    refine reduceFulfilled_false ?_ hf
    intro ci hci b hb
    obtain ⟨i, hi⟩ := List.mem_iff_getElem?.1 hci
    obtain ⟨co, hp, hun⟩ := hu i ci hi
    unfold CoinInput.isFulfilled at hb
    simp only [hp] at hb
    exact unlocks_fulfilled hun b hb

end TF.Props
