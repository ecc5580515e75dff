import Verif.Spec.Errors
import Verif.Props.Swap2
import Verif.Props.Explorer
/-! # C124: an exception says what it is about -/
namespace TF.Props
open TF TF.Spec

/-! ## Exceptions of what is called -/

theorem plain_ok {α : Type} {r : Res α} {x : α} : r.plain = .ok x ↔ r = .ok x := by
  cases r <;> simp [Res.plain, Except.mapError]

theorem plain_err {α : Type} {r : Res α} {f : Fault} : r.plain = .error f ↔ ∃ e, f = .plain e ∧ r = .error e := by
  cases r with
  | ok x => simp [Res.plain, Except.mapError]
  | error e => simp [Res.plain, Except.mapError]; exact eq_comm

theorem bindF_err {α β : Type} {r : ResF α} {g : α → ResF β} {f : Fault} (h : r >>= g = .error f) : r = .error f ∨ ∃ x, r = .ok x ∧ g x = .error f := by
  cases r with
  | ok x => exact .inr ⟨x, rfl, h⟩
  | error e => cases h; exact .inl rfl

theorem bindF_ok {α β : Type} {r : ResF α} {g : α → ResF β} {y : β} (h : r >>= g = .ok y) : ∃ x, r = .ok x ∧ g x = .ok y := by
  cases r with
  | ok x => exact ⟨x, rfl, h⟩
  | error e => cases h

theorem quiet_ok {α : Type} (x : α) : Quiet (.ok x : Res α) := by intro e h; cases h

theorem quiet_err {α : Type} {e : Err} (h : ¬ Telling e) : Quiet (.error e : Res α) := by intro e' he; cases he; exact h

theorem quiet_bind {α β : Type} {r : Res α} {g : α → Res β} (h : Quiet r) (hg : ∀ x, r = .ok x → Quiet (g x)) : Quiet (r >>= g) := by
  cases r with
  | ok x => exact hg x rfl
  | error e => intro e' he; cases he; exact h e rfl

theorem quiet_type : ¬ Telling .typeError := by simp [Telling]
theorem quiet_value : ¬ Telling .valueError := by simp [Telling]

theorem quiet_norm (enc : StrEnc) (v : BVal) : Quiet (v.norm enc) := by
  cases v with
  | str s => simp only [BVal.norm]; split; exact quiet_ok _; exact quiet_err quiet_value
  | other => exact quiet_err quiet_type
  | none => exact quiet_ok _
  | bytes _ => exact quiet_ok _
  | data _ => exact quiet_ok _

theorem quiet_set (d : BinData) (v : BVal) : Quiet (d.set v) := by
  unfold BinData.set
  refine quiet_bind (quiet_norm _ _) fun b _ => ?_
  split
  · exact quiet_ok _
  · split
    · exact quiet_err quiet_value
    · exact quiet_ok _

theorem quiet_new (v : BVal) (n : Option Int) (enc : StrEnc) : Quiet (BinData.new v n enc) := by
  unfold BinData.new
  split
  · exact quiet_set _ _
  · split
    · exact quiet_err quiet_type
    · split
      · exact quiet_set _ _
      · exact quiet_bind (quiet_set _ _) fun _ _ => quiet_ok _

theorem quiet_eq (a b : BinData) : Quiet (a.eq b) := by
  unfold BinData.eq
  split
  · exact quiet_err quiet_type
  · split
    · exact quiet_err quiet_type
    · exact quiet_ok _

theorem quiet_secret (v : BVal) : Quiet (secretNew v) := quiet_bind (quiet_new _ _ _) fun _ _ => quiet_ok _
theorem quiet_secretHash (v : BVal) : Quiet (secretHashNew v) := quiet_bind (quiet_new _ _ _) fun _ _ => quiet_ok _

theorem quiet_verify (sha : Bytes → Bytes) (c : Contract) (s : BVal) : Quiet (c.verifySecret sha s) :=
  quiet_bind (quiet_secret s) fun _ _ => quiet_bind (quiet_secretHash _) fun _ _ => quiet_eq _ _

theorem quiet_hash (v : BVal) : Quiet (Hash.new v) := quiet_bind (quiet_new _ _ _) fun _ _ => quiet_ok _

theorem quiet_address (H : Bytes → Bytes) (j : Json) : Quiet (UnlockHash.fromJson H j) := by
  unfold UnlockHash.fromJson
  split
  · unfold UnlockHash.fromStr
    split
    · exact quiet_err quiet_value
    · split
      · exact quiet_err quiet_value
      · split
        · rename_i e he; exact quiet_err (quiet_hash _ e he)
        · split
          · exact quiet_err (by simp [Telling])
          · split
            · split
              · exact quiet_err quiet_value
              · exact quiet_ok _
            · split
              · exact quiet_err quiet_value
              · exact quiet_ok _
  · exact quiet_err quiet_type

theorem quiet_addressIn (H : Bytes → Bytes) (u : UnlockHash) : ∀ l : List Str, Quiet (addressIn H u l) := by
  intro l
  induction l with
  | nil => exact quiet_ok _
  | cons a l ih =>
    refine quiet_bind (quiet_address H _) fun v _ => ?_
    split
    · exact quiet_ok _
    · exact ih

theorem quiet_output (co : CoinOutput) (u : Bool) : Quiet (Contract.ofOutput co u) := by
  unfold Contract.ofOutput
  split
  · exact quiet_ok _
  · exact quiet_err quiet_type

theorem shows_of {co : CoinOutput} {u : Bool} {c : Contract} (h : Contract.ofOutput co u = .ok c) : Shows c co ∧ c.unspent = u := by
  unfold Contract.ofOutput at h
  split at h
  · rename_i hc; cases h; exact ⟨⟨rfl, rfl, hc⟩, rfl⟩
  · cases h

theorem addressIn_false {H : Bytes → Bytes} {u : UnlockHash} : ∀ {l : List Str}, addressIn H u l = .ok false → ∀ a ∈ l, ¬ Names H a u := by
  intro l
  induction l with
  | nil => intro _ a ha; simp at ha
  | cons s l ih =>
    intro h
    simp only [addressIn, bind, Except.bind] at h
    split at h
    · cases h
    · rename_i v hv
      split at h
      · cases h
      · rename_i hne
        intro a ha hn
        rcases List.mem_cons.1 ha with rfl | ha
        · unfold Names at hn; rw [hv] at hn; cases hn; simp at hne
        · exact ih h a ha hn

/-! ## Contracts -/

theorem fetchF_err {W : SwapWorld} {told : Told} (q : QuietWorld W told) {id : BVal} {u : Bool} {f : Fault} (h : W.fetchF told id u = .error f) :
    BlamesFetch told id f := by
  unfold SwapWorld.fetchF at h
  split at h
  · rename_i ht; cases h; exact ⟨rfl, ht⟩
  · rename_i e _ ht; cases h; exact q.outputs id e ht
  · rename_i co t ht
    rcases bindF_err h with h | ⟨_, _, h⟩
    · obtain ⟨e, rfl, he⟩ := plain_err.1 h; exact q.time e he
    · rcases bindF_err h with h | ⟨c, hc, h⟩
      · obtain ⟨e, rfl, he⟩ := plain_err.1 h; exact quiet_output _ _ e he
      · cases h
        obtain ⟨h1, h2⟩ := shows_of (plain_ok.1 hc)
        exact ⟨h2, co, ht, h1⟩
  · rcases bindF_err h with h | ⟨_, _, h⟩
    · obtain ⟨e, rfl, he⟩ := plain_err.1 h; exact q.time e he
    · obtain ⟨e, rfl, he⟩ := plain_err.1 h; exact quiet_output _ _ e he

theorem fetchF_ok {W : SwapWorld} {told : Told} {id : BVal} {u : Bool} {c : Contract} (h : W.fetchF told id u = .ok c) : IsTold told id c ∧ c.unspent = u := by
  unfold SwapWorld.fetchF at h
  split at h
  · cases h
  · cases h
  · obtain ⟨_, _, h⟩ := bindF_ok h
    obtain ⟨_, _, h⟩ := bindF_ok h
    cases h
  · rename_i co ht
    obtain ⟨_, _, h⟩ := bindF_ok h
    obtain ⟨h1, h2⟩ := shows_of (plain_ok.1 h)
    exact ⟨⟨co, ht, h1⟩, h2⟩

theorem blames_redeem {W : SwapWorld} {told : Told} {id secret : BVal} {f : Fault} (h : BlamesFetch told id f) : BlamesRedeem W told id secret f := by
  cases f <;> simp_all [BlamesFetch, BlamesRedeem]

theorem blames_refund {W : SwapWorld} {told : Told} {id : BVal} {f : Fault} (h : BlamesFetch told id f) : BlamesRefund W told id f := by
  cases f <;> simp_all [BlamesFetch, BlamesRefund]

/-- **C124** When `redeem` refuses, the exception carries the output identifier asked for, or the contract the explorers told about (and the
transaction that spent it), and its reason is there: nothing was found, the contract is spent, the secret is not that of the contract, or the
wallet has not the address of the receiver. -/
theorem C124_redeem {W : SwapWorld} {told : Told} (hs : Digest32 W.sha) (q : QuietWorld W told) {id secret : BVal} {f : Fault}
    (h : W.redeemableF told id secret = .error f) : BlamesRedeem W told id secret f := by
  rcases bindF_err h with h | ⟨c, hc, h⟩
  · exact blames_redeem (fetchF_err q h)
  · have ht := (fetchF_ok hc).1
    rcases bindF_err h with h | ⟨_, _, h⟩
    · rcases bindF_err h with h | ⟨b, hb, h⟩
      · obtain ⟨e, rfl, he⟩ := plain_err.1 h; exact quiet_verify _ _ _ e he
      · have hb := plain_ok.1 hb
        cases b with
        | false =>
          cases h
          refine ⟨ht, fun o => ?_⟩
          rw [(C64_verify_secret W.sha hs c secret).2 o] at hb; cases hb
        | true =>
          rcases bindF_err h with h | ⟨addrs, ha, h⟩
          · obtain ⟨e, rfl, he⟩ := plain_err.1 h; exact q.addresses e he
          · have ha := plain_ok.1 ha
            rcases bindF_err h with h | ⟨b, hb', h⟩
            · obtain ⟨e, rfl, he⟩ := plain_err.1 h; exact quiet_addressIn _ _ _ e he
            · have hb' := plain_ok.1 hb'
              cases b with
              | true => cases h
              | false =>
                cases h
                refine ⟨ht, ?_⟩
                rintro ⟨l, hl, a, hal, hn⟩
                rw [ha] at hl; cases hl
                exact addressIn_false hb' a hal hn
    · cases h

/-- **C124** When `refund` refuses: likewise, and the reason is that nothing was found, the contract is spent, it cannot be refunded yet, or the
wallet has not the address of the sender. (Given that the exception is one that says something: see `C124_undated_false`.) -/
theorem C124_refund {W : SwapWorld} {clock : Int → Res Str} {told : Told} (q : QuietWorld W told) (qc : ∀ t, Quiet (clock t)) {id : BVal} {f : Fault}
    (h : W.refundableF clock told id = .error f) : BlamesRefund W told id f := by
  rcases bindF_err h with h | ⟨c, hc, h⟩
  · exact blames_refund (fetchF_err q h)
  · have ht := (fetchF_ok hc).1
    rcases bindF_err h with h | ⟨_, _, h⟩
    · rcases bindF_err h with h | ⟨now, hn, h⟩
      · obtain ⟨e, rfl, he⟩ := plain_err.1 h; exact q.time e he
      · have hn := plain_ok.1 hn
        by_cases hl : now < c.lockTime
        · rw [if_pos hl] at h
          rcases bindF_err h with h | ⟨_, _, h⟩
          · obtain ⟨e, rfl, he⟩ := plain_err.1 h; exact qc _ e he
          · rcases bindF_err h with h | ⟨_, h', _⟩
            · cases h; exact ⟨ht, .inl ⟨now, hn, hl⟩⟩
            · cases h'
        · rw [if_neg hl] at h
          rcases bindF_err h with h | ⟨addrs, ha, h⟩
          · obtain ⟨e, rfl, he⟩ := plain_err.1 h; exact q.addresses e he
          · have ha := plain_ok.1 ha
            rcases bindF_err h with h | ⟨b, hb', h⟩
            · obtain ⟨e, rfl, he⟩ := plain_err.1 h; exact quiet_addressIn _ _ _ e he
            · have hb' := plain_ok.1 hb'
              cases b with
              | true => cases h
              | false =>
                cases h
                refine ⟨ht, .inr ?_⟩
                rintro ⟨l, hl, a, hal, hn⟩
                rw [ha] at hl; cases hl
                exact addressIn_false hb' a hal hn
    · cases h

/-! ### Verifying -/

theorem quiet_dec (d : DecLit) : Quiet (Currency.checkDec d) := by
  cases d with
  | special => exact quiet_err quiet_type
  | fin d =>
    unfold Currency.checkDec
    dsimp only
    split
    · exact quiet_err (by simp [Telling])
    · split
      · exact quiet_err (by simp [Telling])
      · exact quiet_ok _

theorem quiet_amount (v : CVal) : Quiet (Currency.set v) := by
  cases v with
  | str s =>
    unfold Currency.set
    dsimp only
    split
    · exact quiet_err (by simp [Telling])
    · exact quiet_dec _
  | int i => exact quiet_dec (.fin (Dec.ofInt i))
  | dec d => exact quiet_dec d
  | none => exact quiet_ok _
  | cur c => exact quiet_ok _
  | other => exact quiet_err quiet_type

theorem invalidOf_err {α : Type} {c : Contract} {r : Res α} {f : Fault} (h : invalidOf c r = .error f) :
    f = .contractInvalid c ∨ ∃ e, f = .plain e ∧ r = .error e ∧ e ≠ .atomicSwapContractInvalid := by
  cases r with
  | ok x => cases h
  | error e =>
    by_cases he : e = .atomicSwapContractInvalid
    · simp [invalidOf, Except.mapError, he] at h; exact .inl h.symm
    · simp [invalidOf, Except.mapError, he] at h; exact .inr ⟨e, h.symm, rfl, he⟩

theorem invalidOf_ok {α : Type} {c : Contract} {r : Res α} {x : α} : invalidOf c r = .ok x ↔ r = .ok x := by
  cases r <;> simp [invalidOf, Except.mapError]

/-- Only the class `AtomicSwapContractInvalid` is raised, apart from what says nothing. -/
def Checks (r : Res Unit) : Prop := ∀ e, r = .error e → e ≠ .atomicSwapContractInvalid → ¬ Telling e

theorem quiet_checks {r : Res Unit} (h : Quiet r) : Checks r := fun e he _ => h e he

theorem checks_bind {α : Type} {r : Res α} {g : α → Res Unit} (h : Quiet r) (hg : ∀ x, r = .ok x → Checks (g x)) : Checks (r >>= g) := by
  cases r with
  | ok x => exact hg x rfl
  | error e => intro e' he; cases he; exact fun _ => h e rfl

theorem checks_if {p : Prop} [Decidable p] : Checks (if p then throw .atomicSwapContractInvalid else pure ()) := by
  intro e he hne
  by_cases hp : p
  · rw [if_pos hp] at he; cases he; exact absurd rfl hne
  · rw [if_neg hp] at he; cases he

theorem checks_amount (c : Contract) (v : CVal) : Checks (c.checkAmount v) := by
  unfold Contract.checkAmount
  split
  · intro e he; cases he
  · exact checks_bind (quiet_amount _) fun _ _ => checks_if

theorem checks_hash (c : Contract) (v : BVal) : Checks (c.checkSecretHash v) := by
  unfold Contract.checkSecretHash
  split
  · intro e he; cases he
  · exact checks_bind (quiet_secretHash _) fun _ _ => checks_bind (quiet_eq _ _) fun _ _ => checks_if

theorem checks_party {W : SwapWorld} (q : Quiet W.addresses) (u : UnlockHash) (b : Bool) : Checks (W.checkParty u b) := by
  unfold SwapWorld.checkParty
  cases b with
  | false => intro e he; cases he
  | true => exact checks_bind q fun _ _ => checks_bind (quiet_addressIn _ _ _) fun _ _ => checks_if

theorem quiet_other (v : BVal) : Quiet (otherData v) := by
  cases v with
  | str s => exact quiet_new (.str s) (some 32) .hex
  | bytes s => exact quiet_new (.bytes s) (some 32) .hex
  | data d => exact quiet_ok _
  | none => exact quiet_err quiet_type
  | other => exact quiet_err quiet_type

theorem quiet_refundTime (v : LockVal) : Quiet (refundTime v) := by
  unfold refundTime
  split <;> first | exact quiet_ok _ | exact quiet_err quiet_type

theorem durString_int (F : FloatSeconds) (n : Int) : ∃ s, durString F (.int n) = .ok s := by
  simp only [durString, durClean, bind, Except.bind]
  split
  · exact ⟨_, rfl⟩
  · exact ⟨_, rfl⟩

theorem checkRefundTimeF_err {W : SwapWorld} {clock : Int → Res Str} {F : FloatSeconds} (qt : Quiet W.chainTime) (qc : ∀ t, Quiet (clock t)) {c : Contract} {min : LockVal}
    {f : Fault} (h : W.checkRefundTimeF clock F c min = .error f) : f = .contractInvalid c ∨ ∃ e, f = .plain e ∧ ¬ Telling e := by
  unfold SwapWorld.checkRefundTimeF at h
  split at h
  · cases h
  · rcases bindF_err h with h | ⟨now, _, h⟩
    · obtain ⟨e, rfl, he⟩ := plain_err.1 h; exact .inr ⟨e, rfl, qt e he⟩
    · rcases bindF_err h with h | ⟨m, _, h⟩
      · obtain ⟨e, rfl, he⟩ := plain_err.1 h; exact .inr ⟨e, rfl, quiet_refundTime _ e he⟩
      · dsimp only at h
        generalize hl : (if now ≥ c.lockTime then (0 : Int) else c.lockTime - now) = left at h
        by_cases h1 : max 0 (m - now) ≤ 0
        · rw [if_pos h1] at h
          by_cases h2 : left ≠ 0
          · rw [if_pos h2] at h; cases h; exact .inl rfl
          · rw [if_neg h2] at h; cases h
        · rw [if_neg h1] at h
          by_cases h2 : left < max 0 (m - now)
          · rw [if_pos h2] at h
            by_cases h3 : left = 0
            · rw [if_pos h3] at h
              rcases bindF_err h with h | ⟨_, _, h⟩
              · obtain ⟨e, rfl, he⟩ := plain_err.1 h
                obtain ⟨s, hs⟩ := durString_int F (max 0 (m - now)); rw [hs] at he; cases he
              · rcases bindF_err h with h | ⟨_, _, h⟩
                · obtain ⟨e, rfl, he⟩ := plain_err.1 h; exact .inr ⟨e, rfl, qc _ e he⟩
                · cases h; exact .inl rfl
            · rw [if_neg h3] at h
              rcases bindF_err h with h | ⟨_, _, h⟩
              · obtain ⟨e, rfl, he⟩ := plain_err.1 h
                obtain ⟨s, hs⟩ := durString_int F (max 0 (m - now)); rw [hs] at he; cases he
              · rcases bindF_err h with h | ⟨_, _, h⟩
                · obtain ⟨e, rfl, he⟩ := plain_err.1 h
                  obtain ⟨s, hs⟩ := durString_int F left; rw [hs] at he; cases he
                · cases h; exact .inl rfl
          · rw [if_neg h2] at h; cases h

/-- **C124** When `verify` refuses, the exception carries the contract that was given, or the one the explorers told about (as unspent), or what
fetching it failed with. -/
theorem C124_verify {W : SwapWorld} {clock : Int → Res Str} {F : FloatSeconds} {told : Told} (q : QuietWorld W told) (qc : ∀ t, Quiet (clock t)) {id : BVal} {amt : CVal}
    {hash : BVal} {min : LockVal} {sender receiver : Bool} {given : Option Contract} {f : Fault}
    (h : W.verifyF clock F told id amt hash min sender receiver given = .error f) : BlamesVerify told id given f := by
  have whole : ∀ c, (∃ e, f = .plain e ∧ ¬ Telling e) ∨ (f = .contractInvalid c ∧ (given = some c ∨ (given = none ∧ c.unspent = true ∧ IsTold told id c))) →
      BlamesVerify told id given f := by
    rintro c (⟨e, rfl, he⟩ | ⟨rfl, hg⟩)
    · exact he
    · exact hg
  have rest : ∀ c, (given = some c ∨ (given = none ∧ c.unspent = true ∧ IsTold told id c)) →
      (do invalidOf c (c.checkAmount amt)
          invalidOf c (c.checkSecretHash hash)
          W.checkRefundTimeF clock F c min
          invalidOf c (W.checkParty c.sender sender)
          invalidOf c (W.checkParty c.receiver receiver)
          return c : ResF Contract) = .error f → BlamesVerify told id given f := by
    intro c hg h
    apply whole c
    have inv : ∀ {r : Res Unit}, Checks r → invalidOf c r = .error f → (∃ e, f = .plain e ∧ ¬ Telling e) ∨
        (f = .contractInvalid c ∧ (given = some c ∨ (given = none ∧ c.unspent = true ∧ IsTold told id c))) := by
      intro r hr h
      rcases invalidOf_err h with rfl | ⟨e, rfl, he, hne⟩
      · exact .inr ⟨rfl, hg⟩
      · exact .inl ⟨e, rfl, hr e he hne⟩
    rcases bindF_err h with h | ⟨_, _, h⟩
    · exact inv (checks_amount c amt) h
    · rcases bindF_err h with h | ⟨_, _, h⟩
      · exact inv (checks_hash c hash) h
      · rcases bindF_err h with h | ⟨_, _, h⟩
        · rcases checkRefundTimeF_err q.time qc h with h | h
          · exact .inr ⟨h, hg⟩
          · exact .inl h
        · rcases bindF_err h with h | ⟨_, _, h⟩
          · exact inv (checks_party q.addresses _ _) h
          · rcases bindF_err h with h | ⟨_, _, h⟩
            · exact inv (checks_party q.addresses _ _) h
            · cases h
  cases given with
  | none =>
    rcases bindF_err h with h | ⟨c, hc, h⟩
    · have hb := fetchF_err q h
      cases f <;> simp_all [BlamesVerify, BlamesFetch]
    · obtain ⟨h1, h2⟩ := fetchF_ok hc
      exact rest c (.inr ⟨rfl, h2, h1⟩) h
  | some c =>
    rcases bindF_err h with h | ⟨c', hc, h⟩
    · rcases bindF_err h with h | ⟨o, _, h⟩
      · obtain ⟨e, rfl, he⟩ := plain_err.1 h; exact quiet_other _ e he
      · rcases bindF_err h with h | ⟨b, _, h⟩
        · obtain ⟨e, rfl, he⟩ := plain_err.1 h; exact quiet_eq _ _ e he
        · cases b with
          | true => cases h
          | false => cases h; exact .inl rfl
    · obtain ⟨o, _, hc⟩ := bindF_ok hc
      obtain ⟨b, _, hc⟩ := bindF_ok hc
      cases b with
      | false => cases hc
      | true => cases hc; exact rest c (.inl rfl) h

/-! ### The operations raise just these -/

theorem erase_plain {α : Type} (r : Res α) : Fault.erase r.plain = r := by cases r <;> rfl

theorem erase_bind {α β : Type} (r : ResF α) (g : α → ResF β) : Fault.erase (r >>= g) = (Fault.erase r >>= fun x => Fault.erase (g x)) := by cases r <;> rfl

theorem erase_ok {α : Type} {r : ResF α} {x : α} : Fault.erase r = .ok x ↔ r = .ok x := by cases r <;> simp [Fault.erase, Except.mapError]

theorem ok_then {ε α β : Type} (x : α) (g : α → Except ε β) : (Except.ok x >>= g) = g x := rfl

theorem fetch_erase (W : SwapWorld) (told : Told) (id : BVal) (u : Bool) : (telling W told).fetch id u = Fault.erase (W.fetchF told id u) := by
  unfold SwapWorld.fetch SwapWorld.fetchF telling
  dsimp only
  cases ht : told id with
  | error e => cases e <;> rfl
  | ok x =>
    obtain ⟨co, t⟩ := x
    cases hn : W.chainTime with
    | error e => cases t <;> simp [Except.map, bind, Except.bind, Res.plain, Except.mapError, Fault.erase, Fault.kind, hn]
    | ok now =>
      cases hc : co.condition <;> cases t <;>
        simp [Except.map, bind, Except.bind, Res.plain, Except.mapError, Fault.erase, Fault.kind, Contract.ofOutput, hc, hn, throw, throwThe, MonadExceptOf.throw, pure, Except.pure]

theorem mayRedeem_erase (W : SwapWorld) (told : Told) (c : Contract) (s : BVal) : (telling W told).mayRedeem c s = Fault.erase (W.mayRedeemF c s) := by
  unfold SwapWorld.mayRedeem SwapWorld.mayRedeemF telling
  dsimp only
  rw [erase_bind, erase_plain]
  cases c.verifySecret W.sha s with
  | error e => rfl
  | ok b =>
    cases b with
    | false => rfl
    | true =>
      show (W.addresses >>= _) = Fault.erase (W.addresses.plain >>= _)
      rw [erase_bind, erase_plain]
      cases W.addresses with
      | error e => rfl
      | ok l =>
        show (addressIn W.H c.receiver l >>= _) = Fault.erase ((addressIn W.H c.receiver l).plain >>= _)
        rw [erase_bind, erase_plain]
        cases addressIn W.H c.receiver l with
        | error e => rfl
        | ok b => cases b <;> rfl

theorem mayRefund_erase (W : SwapWorld) (clock : Int → Res Str) (told : Told) (c : Contract) (hd : ∃ s, clock c.lockTime = .ok s) :
    (telling W told).mayRefund c = Fault.erase (W.mayRefundF clock c) := by
  obtain ⟨s, hd⟩ := hd
  unfold SwapWorld.mayRefund SwapWorld.mayRefundF telling
  dsimp only
  rw [erase_bind, erase_plain]
  cases W.chainTime with
  | error e => rfl
  | ok now =>
    simp only [bind, Except.bind]
    by_cases hl : now < c.lockTime
    · rw [if_pos hl, if_pos hl]; simp only [hd]; rfl
    · rw [if_neg hl, if_neg hl]
      show (W.addresses >>= _) = Fault.erase (W.addresses.plain >>= _)
      rw [erase_bind, erase_plain]
      cases W.addresses with
      | error e => rfl
      | ok l =>
        show (addressIn W.H c.sender l >>= _) = Fault.erase ((addressIn W.H c.sender l).plain >>= _)
        rw [erase_bind, erase_plain]
        cases addressIn W.H c.sender l with
        | error e => rfl
        | ok b => cases b <;> rfl

/-- **C124** These are the exceptions of `redeem`: if it does not get as far as making a transaction, it raises this one, and nothing is posted;
else it claims the contract. -/
theorem C124_redeem_raises (W : SwapWorld) (told : Told) (id secret : BVal) (data : DataArg) :
    (∀ f, W.redeemableF told id secret = .error f → (telling W told).redeem id secret data = ⟨[], .error f.kind⟩) ∧
    (∀ c, W.redeemableF told id secret = .ok c → (telling W told).redeem id secret data =
      Outcome.ofRes (setSecret secret) fun s => Outcome.ofRes ((telling W told).claim c false s data) (telling W told).claimSubmit) := by
  unfold SwapWorld.redeem SwapWorld.redeemableF
  rw [fetch_erase]
  cases W.fetchF told id false with
  | error f => exact ⟨fun _ h => by cases h; rfl, fun _ h => by cases h⟩
  | ok c =>
    show (∀ f, (W.mayRedeemF c secret >>= fun _ => pure c) = .error f → Outcome.ofRes ((telling W told).mayRedeem c secret) _ = _) ∧
      (∀ c', (W.mayRedeemF c secret >>= fun _ => pure c) = .ok c' → Outcome.ofRes ((telling W told).mayRedeem c secret) _ = _)
    rw [mayRedeem_erase]
    cases W.mayRedeemF c secret with
    | error f => exact ⟨fun _ h => by cases h; rfl, fun _ h => by cases h⟩
    | ok x => exact ⟨fun _ h => by (cases h), fun _ h => by cases h; rfl⟩

/-- **C124** These are the exceptions of `refund`, if the lock time of the contract can be printed as a date. -/
theorem C124_refund_raises_partial (W : SwapWorld) (clock : Int → Res Str) (told : Told) (id : BVal) (data : DataArg)
    (dated : ∀ c, IsTold told id c → ∃ s, clock c.lockTime = .ok s) :
    (∀ f, W.refundableF clock told id = .error f → (telling W told).refund id data = ⟨[], .error f.kind⟩) ∧
    (∀ c, W.refundableF clock told id = .ok c → (telling W told).refund id data =
      Outcome.ofRes ((telling W told).claim c true none data) (telling W told).claimSubmit) := by
  unfold SwapWorld.refund SwapWorld.refundableF
  rw [fetch_erase]
  cases hc : W.fetchF told id false with
  | error f => exact ⟨fun _ h => by cases h; rfl, fun _ h => by cases h⟩
  | ok c =>
    show (∀ f, (W.mayRefundF clock c >>= fun _ => pure c) = .error f → Outcome.ofRes ((telling W told).mayRefund c) _ = _) ∧
      (∀ c', (W.mayRefundF clock c >>= fun _ => pure c) = .ok c' → Outcome.ofRes ((telling W told).mayRefund c) _ = _)
    rw [mayRefund_erase W clock told c (dated c (fetchF_ok hc).1)]
    cases W.mayRefundF clock c with
    | error f => exact ⟨fun _ h => by cases h; rfl, fun _ h => by cases h⟩
    | ok x => exact ⟨fun _ h => by (cases h), fun _ h => by cases h; rfl⟩

theorem invalidOf_erase {α : Type} (c : Contract) (r : Res α) : Fault.erase (invalidOf c r) = r := by
  cases r with
  | ok x => rfl
  | error e =>
    by_cases he : e = .atomicSwapContractInvalid
    · simp [invalidOf, Except.mapError, Fault.erase, he, Fault.kind]
    · simp [invalidOf, Except.mapError, Fault.erase, he, Fault.kind]

theorem toVerify_erase (W : SwapWorld) (told : Told) (id : BVal) (given : Option Contract) :
    (telling W told).toVerify id given = Fault.erase (W.toVerifyF told id given) := by
  cases given with
  | none => exact fetch_erase W told id true
  | some c =>
    unfold SwapWorld.toVerify SwapWorld.toVerifyF
    dsimp only
    rw [erase_bind, erase_plain]
    cases otherData id with
    | error e => rfl
    | ok o =>
      show ((⟨c.id.value, some 32, .hex⟩ : BinData).eq o >>= _) = Fault.erase (((⟨c.id.value, some 32, .hex⟩ : BinData).eq o).plain >>= _)
      rw [erase_bind, erase_plain]
      cases BinData.eq ⟨c.id.value, some 32, .hex⟩ o with
      | error e => rfl
      | ok b => cases b <;> rfl

theorem checkRefundTime_erase (W : SwapWorld) (clock : Int → Res Str) (F : FloatSeconds) (told : Told) (c : Contract) (min : LockVal) (hd : ∃ s, clock c.lockTime = .ok s) :
    (telling W told).checkRefundTime c min = Fault.erase (W.checkRefundTimeF clock F c min) := by
  obtain ⟨s, hd⟩ := hd
  unfold SwapWorld.checkRefundTime SwapWorld.checkRefundTimeF telling
  cases min with
  | none => rfl
  | _ =>
    dsimp only
    rw [erase_bind, erase_plain]
    cases W.chainTime with
    | error e => rfl
    | ok now =>
      rw [ok_then, ok_then, erase_bind, erase_plain]
      generalize refundTime _ = m
      cases m with
      | error e => rfl
      | ok m =>
        simp only [bind, Except.bind]
        unfold Contract.refundTimeOk
        dsimp only
        generalize (if now ≥ c.lockTime then (0 : Int) else c.lockTime - now) = left
        by_cases h1 : max 0 (m - now) ≤ 0
        · simp only [if_pos h1]
          by_cases h2 : left = 0
          · simp [h2]; rfl
          · simp [h2]; rfl
        · simp only [if_neg h1]
          by_cases h2 : left < max 0 (m - now)
          · rw [if_pos h2, if_pos (by simpa using h2)]
            by_cases h3 : left = 0
            · rw [if_pos h3]
              obtain ⟨s1, hs1⟩ := durString_int F (max 0 (m - now))
              simp only [hs1, hd]; rfl
            · rw [if_neg h3]
              obtain ⟨s1, hs1⟩ := durString_int F (max 0 (m - now))
              obtain ⟨s2, hs2⟩ := durString_int F left
              simp only [hs1, hs2]; rfl
          · rw [if_neg h2, if_neg (by simpa using h2)]; rfl

/-- **C124** These are the exceptions of `verify`, if the lock time of the contract can be printed as a date. -/
theorem C124_verify_raises_partial (W : SwapWorld) (clock : Int → Res Str) (F : FloatSeconds) (told : Told) (id : BVal) (amt : CVal) (hash : BVal) (min : LockVal)
    (sender receiver : Bool) (given : Option Contract) (dated : ∀ c, given = some c ∨ IsTold told id c → ∃ s, clock c.lockTime = .ok s) :
    (telling W told).verify id amt hash min sender receiver given = Fault.erase (W.verifyF clock F told id amt hash min sender receiver given) := by
  unfold SwapWorld.verify SwapWorld.verifyF
  rw [toVerify_erase, erase_bind]
  cases hc : W.toVerifyF told id given with
  | error f => rfl
  | ok c =>
    have hd : ∃ s, clock c.lockTime = .ok s := by
      apply dated
      cases given with
      | none => exact .inr (fetchF_ok hc).1
      | some c' =>
        obtain ⟨_, _, hc⟩ := bindF_ok hc
        obtain ⟨b, _, hc⟩ := bindF_ok hc
        cases b with
        | false => cases hc
        | true => cases hc; exact .inl rfl
    show (c.checkAmount amt >>= _) = Fault.erase (invalidOf c (c.checkAmount amt) >>= _)
    rw [erase_bind, invalidOf_erase]
    congr 1; funext _
    rw [erase_bind, invalidOf_erase]
    congr 1; funext _
    rw [erase_bind, ← checkRefundTime_erase W clock F told c min hd]
    congr 1; funext _
    rw [erase_bind, invalidOf_erase]
    congr 1; funext _
    rw [erase_bind, invalidOf_erase]
    congr 1

/-- **C124** A contract that is refused for its amount: the exception carries the amount and the miner fee, which is not below it. -/
theorem C124_amount (W : SwapWorld) (amt : CVal) :
    (∀ f, W.swapAmountF amt = .error f → (∃ a, f = .insufficientAmount a W.fee ∧ Currency.set amt = .ok a ∧ a.le W.fee = true) ∨ ∃ e, f = .plain e ∧ ¬ Telling e) ∧
    W.swapAmount amt = Fault.erase (W.swapAmountF amt) := by
  constructor
  · intro f h
    unfold SwapWorld.swapAmountF at h
    rcases bindF_err h with h | ⟨a, ha, h⟩
    · obtain ⟨e, rfl, he⟩ := plain_err.1 h
      refine .inr ⟨e, rfl, ?_⟩
      unfold positiveAmount at he
      rcases hs : Currency.set amt with e' | a
      · rw [hs] at he; cases he; exact quiet_amount _ e hs
      · rw [hs] at he
        simp only [bind, Except.bind] at he
        split at he
        · cases he; exact quiet_value
        · cases he
    · by_cases hl : a.le W.fee = true
      · rw [if_pos hl] at h; cases h
        refine .inl ⟨a, rfl, ?_, hl⟩
        have ha := plain_ok.1 ha
        unfold positiveAmount at ha
        rcases hs : Currency.set amt with e' | a'
        · rw [hs] at ha; cases ha
        · rw [hs] at ha
          simp only [bind, Except.bind] at ha
          split at ha
          · cases ha
          · cases ha; rfl
      · rw [if_neg hl] at h; cases h
  · unfold SwapWorld.swapAmount SwapWorld.swapAmountF
    rw [erase_bind, erase_plain]
    cases positiveAmount amt with
    | error e => rfl
    | ok a =>
      simp only [bind, Except.bind]
      split <;> rfl

/-! ## Explorers -/

/-- **C124** The exception of a `get` carries the endpoint asked for; `ExplorerNotAvailable` also the addresses of the client, all of which
were tried in vain. -/
theorem C124_get (decode : Bytes → Option Str) (ask : Str → Reply) (endpoint : Str) (all : List Address) :
    ∀ order : List Address, (∀ f, explorerGetF decode ask endpoint all order = .error f → BlamesGet ask decode endpoint all order f) ∧
      explorerGet decode ask order = Fault.erase (explorerGetF decode ask endpoint all order) := by
  intro order
  induction order with
  | nil => exact ⟨fun f h => by cases h; exact ⟨rfl, rfl, by simp⟩, rfl⟩
  | cons a rest ih =>
    cases a with
    | none => exact ⟨fun f h => by cases h; exact .inl rfl, rfl⟩
    | some a =>
      cases ha : ask a with
      | unreachable =>
        rw [explorerGetF, explorerGet]
        simp only [ha]
        refine ⟨fun f h => ?_, ih.2⟩
        have := ih.1 f h
        cases f with
        | noContent ep => obtain ⟨h1, b, hb, h2⟩ := this; exact ⟨h1, b, List.mem_cons_of_mem _ hb, h2⟩
        | serverError ep => obtain ⟨h1, b, hb, h2⟩ := this; exact ⟨h1, b, List.mem_cons_of_mem _ hb, h2⟩
        | notAvailable ep l =>
          obtain ⟨h1, h2, h3⟩ := this
          refine ⟨h1, h2, fun b hb => ?_⟩
          rcases List.mem_cons.1 hb with rfl | hb
          · exact ⟨a, rfl, ha⟩
          · exact h3 b hb
        | plain e => exact this
        | _ => exact this
      | badUrl =>
        rw [explorerGetF, explorerGet]; simp only [ha]
        exact ⟨fun f h => by cases h; exact .inr rfl, rfl⟩
      | refused code body =>
        rw [explorerGetF, explorerGet]; simp only [ha, refusedGet]
        by_cases hc : code = 400
        · subst hc
          simp only [if_true]
          cases hd : decode body with
          | none => exact ⟨fun f h => by cases h; exact .inr rfl, rfl⟩
          | some s =>
            by_cases hs : saysNothing s = true
            · simp only [hs, if_true]
              exact ⟨fun f h => by cases h; exact ⟨rfl, a, by simp, .inr ⟨body, s, ha, hd, hs⟩⟩, rfl⟩
            · simp only [hs]
              exact ⟨fun f h => by cases h; exact ⟨rfl, a, by simp, .inr ⟨400, body, ha⟩⟩, rfl⟩
        · simp only [if_neg hc]
          exact ⟨fun f h => by cases h; exact ⟨rfl, a, by simp, .inr ⟨code, body, ha⟩⟩, rfl⟩
      | answer code line =>
        rw [explorerGetF, explorerGet]; simp only [ha]
        by_cases h1 : okCodes.contains code
        · simp only [h1, not_true, if_false]
          by_cases h2 : code = 200
          · simp only [h2, if_true]; exact ⟨fun f h => (by cases h), rfl⟩
          · simp only [if_neg h2]
            by_cases h3 : code = 204
            · subst h3
              exact ⟨fun f h => by cases h; exact ⟨rfl, a, by simp, .inl ⟨line, ha⟩⟩, rfl⟩
            · simp only [if_neg h3]
              exact ⟨fun f h => by cases h; exact ⟨rfl, a, by simp, .inl ⟨code, line, ha, h2⟩⟩, rfl⟩
        · simp only [h1]
          exact ⟨fun f h => by cases h; exact .inl rfl, rfl⟩

/-- **C124** The exception of a `post` carries the endpoint and the data that an explorer refused, as it was sent; `ExplorerNotAvailable` the
addresses of the client, all of which were tried in vain. -/
theorem C124_post (dumps : Json → Str) (ask : Str → Bytes → Reply) (endpoint : Str) (all : List Address) (data : PostData) :
    ∀ order : List Address,
      (∀ f, (explorerPostF dumps ask endpoint all data order).2 = .error f → BlamesPost dumps ask endpoint all order data f) ∧
      explorerPost dumps ask data order = ((explorerPostF dumps ask endpoint all data order).1, Fault.erase (explorerPostF dumps ask endpoint all data order).2) := by
  intro order
  induction order with
  | nil => exact ⟨fun f h => by cases h; exact ⟨rfl, rfl, by simp⟩, rfl⟩
  | cons a rest ih =>
    cases a with
    | none => exact ⟨fun f h => by cases h; exact .inl rfl, rfl⟩
    | some a =>
      rw [explorerPostF, explorerPost]
      cases hd : data.encode dumps with
      | error e =>
        refine ⟨fun f h => ?_, rfl⟩
        cases h
        left
        cases data with
        | bytes b => cases hd
        | str b => cases hd
        | other => cases hd; rfl
        | dict j => unfold PostData.encode at hd; dsimp only at hd; split at hd <;> cases hd; rfl
      | ok d =>
        cases ha : ask a d with
        | unreachable =>
          simp only [ha]
          rw [ih.2]
          refine ⟨fun f h => ?_, rfl⟩
          have := ih.1 f h
          cases f with
          | postError ep d' => obtain ⟨h1, h2, b, hb, h3⟩ := this; exact ⟨h1, h2, b, List.mem_cons_of_mem _ hb, h3⟩
          | notAvailable ep l =>
            obtain ⟨h1, h2, h3⟩ := this
            refine ⟨h1, h2, fun b hb => ?_⟩
            rcases List.mem_cons.1 hb with rfl | hb
            · exact ⟨a, d, rfl, hd, ha⟩
            · exact h3 b hb
          | _ => exact this
        | badUrl => simp only [ha]; exact ⟨fun f h => by cases h; exact .inr rfl, rfl⟩
        | refused code body =>
          simp only [ha]
          exact ⟨fun f h => by cases h; exact ⟨rfl, hd, a, by simp, .inr ⟨code, body, ha⟩⟩, rfl⟩
        | answer code line =>
          simp only [ha]
          by_cases h1 : okCodes.contains code
          · simp only [h1, not_true, if_false]
            by_cases h2 : code = 200
            · simp only [h2, if_true]; exact ⟨fun f h => (by cases h), rfl⟩
            · simp only [if_neg h2]
              exact ⟨fun f h => by cases h; exact ⟨rfl, hd, a, by simp, .inl ⟨code, line, ha, h2⟩⟩, rfl⟩
          · simp only [h1]
            exact ⟨fun f h => by cases h; exact .inl rfl, rfl⟩

/-! ## 3Bots -/

/-- **C124** `ThreeBotNotFound` carries the identifier asked for (as text), about which the explorers know nothing. -/
theorem C124_bot (C : Client) (arg : BotArg) :
    (∀ s, C.recordGetF arg = .error (.botNotFound s) → s = arg.text ∧ ∃ ep, arg.endpoint = .ok ep ∧ C.get ep = .error .explorerNoContent ∧
      (ep = "/explorer/3bot/".toList ++ s ∨ ep = "/explorer/whois/3bot/".toList ++ s)) ∧
    C.recordGet arg = Fault.erase (C.recordGetF arg) := by
  constructor
  · intro s h
    unfold Client.recordGetF at h
    rcases bindF_err h with h | ⟨ep, hep, h⟩
    · obtain ⟨e, he, _⟩ := plain_err.1 h; cases he
    · have hep := plain_ok.1 hep
      split at h
      · rename_i hg
        cases h
        refine ⟨rfl, ep, hep, hg, ?_⟩
        cases arg with
        | int i => cases hep; exact .inl rfl
        | name n => cases hep; exact .inr rfl
        | key k => cases hep; exact .inl rfl
        | other => cases hep
        | str s =>
          unfold BotArg.endpoint at hep
          dsimp only at hep
          split at hep
          · cases hep; exact .inr rfl
          · split at hep
            · cases hep; exact .inl rfl
            · cases hep
      · cases h
      · obtain ⟨e, he, _⟩ := plain_err.1 h; cases he
  · unfold Client.recordGet Client.recordGetF
    rw [erase_bind, erase_plain]
    cases arg.endpoint with
    | error e => rfl
    | ok ep =>
      rw [ok_then, ok_then]
      cases C.get ep with
      | error e => cases e <;> rfl
      | ok r => exact (erase_plain _).symm

theorem blames_looked {W : World} {records : Records} (hl : Looked records) {ids : List Int} {id : Int} (hi : id ∈ ids) {f : Fault}
    (h : records id = .error f) : BlamesBot W records ids f := by
  rcases hl id f h with rfl | ⟨e, rfl, he⟩
  · exact ⟨id, hi, rfl, h⟩
  · exact he

theorem activeKeyF_err {W : World} {clock : Int → Res Str} {records : Records} (qc : ∀ t, Quiet (clock t)) (hl : Looked records) {now : Int} (hn : W.chainTime = .ok now)
    {ids : List Int} {id : Int} (hi : id ∈ ids) {f : Fault} (h : activeKeyF clock records now id = .error f) : BlamesBot W records ids f := by
  unfold activeKeyF at h
  rcases bindF_err h with h | ⟨⟨k, exp⟩, hr, h⟩
  · exact blames_looked hl hi h
  · dsimp only at h
    by_cases he : exp ≤ now
    · rw [if_pos he] at h
      rcases bindF_err h with h | ⟨_, _, h⟩
      · obtain ⟨e, rfl, he⟩ := plain_err.1 h; exact qc _ e he
      · cases h; exact ⟨hi, now, hn, ⟨k, hr⟩, he⟩
    · rw [if_neg he] at h; cases h

theorem quiet_name (n : NameArg) : Quiet (BotName.new n) := by
  cases n with
  | str s =>
    unfold BotName.new
    dsimp only
    split
    · exact quiet_err quiet_value
    · split
      · exact quiet_err quiet_value
      · exact quiet_ok _
  | none => exact quiet_ok _
  | name n => exact quiet_err (by simp [Telling])
  | other => exact quiet_err quiet_type

theorem quiet_addAll {α β : Type} {max : Nat} {mk : α → Res β} (q : ∀ x, Quiet (mk x)) :
    ∀ (xs : List α) (l : List β) (e : Err), (addAllLimited max mk l xs).2 = some e → ¬ Telling e := by
  intro xs
  induction xs with
  | nil => intro l e h; cases h
  | cons x xs ih =>
    intro l e h
    rw [addAllLimited] at h
    have step : ∀ l' e', addLimited max mk l x = (l', some e') → ¬ Telling e' := by
      intro l' e' hs
      unfold addLimited at hs
      split at hs
      · cases hs; simp [Telling]
      · split at hs
        · cases hs
        · rename_i e'' he; cases hs; exact q x _ he
    cases hs : addLimited max mk l x with
    | mk l' o =>
      rw [hs] at h
      cases o with
      | none => exact ih l' e h
      | some e' => cases h; exact step l' e hs

theorem quiet_names (names : Option (List NameArg)) : Quiet (assignList maxNames BotName.new names) := by
  unfold assignList
  split
  · exact quiet_ok _
  · rename_i l e h; exact quiet_err (quiet_addAll quiet_name _ _ e (by rw [h]))

theorem quiet_botId (i : Int) : Quiet (setBotId i) := by
  unfold setBotId
  split <;> first | exact quiet_ok _ | exact quiet_err (by simp [Telling])

/-- **C124** When `record_update` refuses a 3Bot, the exception carries its identifier: it was not found, or it expired at the time the
exception carries, and no months are paid for. -/
theorem C124_update {W : World} {clock : Int → Res Str} {records : Records} (qt : Quiet W.chainTime) (qc : ∀ t, Quiet (clock t)) (hl : Looked records) {id months : Int}
    {f : Fault} (h : W.activeOrPaidF clock records id months = .error f) : BlamesBot W records [id] f ∧ (∀ i exp, f = .botInactive i exp → months = 0) := by
  unfold World.activeOrPaidF at h
  rcases bindF_err h with h | ⟨⟨k, exp⟩, hr, h⟩
  · refine ⟨blames_looked hl (by simp) h, ?_⟩
    rintro i exp rfl
    rcases hl id _ h with hf | ⟨_, hf, _⟩ <;> cases hf
  · dsimp only at h
    rcases bindF_err h with h | ⟨now, hn, h⟩
    · obtain ⟨e, rfl, he⟩ := plain_err.1 h
      exact ⟨qt e he, fun _ _ h => by cases h⟩
    · have hn := plain_ok.1 hn
      by_cases he : exp ≤ now ∧ months = 0
      · rw [if_pos he] at h
        rcases bindF_err h with h | ⟨_, _, h⟩
        · obtain ⟨e, rfl, he⟩ := plain_err.1 h
          exact ⟨qc _ e he, fun _ _ h => by cases h⟩
        · cases h; exact ⟨⟨by simp, now, hn, ⟨k, hr⟩, he.1⟩, fun _ _ _ => he.2⟩
      · rw [if_neg he] at h; cases h

/-- **C124** When `name_transfer` refuses a 3Bot, the exception carries the identifier of the one it is about: it was not found, or it expired at
the time the exception carries. -/
theorem C124_transfer {W : World} {clock : Int → Res Str} {records : Records} (qt : Quiet W.chainTime) (qc : ∀ t, Quiet (clock t)) (hl : Looked records)
    {sender receiver : Int} {names : Option (List NameArg)} {f : Fault} (h : W.transferF clock records sender receiver names = .error f) : BlamesBot W records [sender, receiver] f := by
  unfold World.transferF at h
  rcases bindF_err h with h | ⟨a, _, h⟩
  · obtain ⟨e, rfl, he⟩ := plain_err.1 h; exact quiet_botId _ e he
  · rcases bindF_err h with h | ⟨b, _, h⟩
    · obtain ⟨e, rfl, he⟩ := plain_err.1 h; exact quiet_botId _ e he
    · rcases bindF_err h with h | ⟨ns, _, h⟩
      · obtain ⟨e, rfl, he⟩ := plain_err.1 h; exact quiet_names _ e he
      · by_cases h0 : ns.length = 0
        · rw [if_pos h0] at h; cases h; exact quiet_value
        · rw [if_neg h0] at h
          rcases bindF_err h with h | ⟨now, hn, h⟩
          · obtain ⟨e, rfl, he⟩ := plain_err.1 h; exact qt e he
          · have hn := plain_ok.1 hn
            rcases bindF_err h with h | ⟨ka, _, h⟩
            · exact activeKeyF_err qc hl hn (by simp) h
            · rcases bindF_err h with h | ⟨kb, _, h⟩
              · exact activeKeyF_err qc hl hn (by simp) h
              · cases h

/-- The surroundings in which the explorers tell this about 3Bots. -/
def lookingUp (W : World) (records : Records) : World := { W with record := fun id => Fault.erase (records id) }

theorem activeOrPaid_erase (W : World) (clock : Int → Res Str) (records : Records) (id months : Int) (dated : ∀ k exp, records id = .ok (k, exp) → ∃ s, clock exp = .ok s) :
    (lookingUp W records).activeOrPaid id months = Fault.erase (W.activeOrPaidF clock records id months) := by
  unfold World.activeOrPaid World.activeOrPaidF lookingUp
  dsimp only
  rw [erase_bind]
  cases hr : records id with
  | error f => rfl
  | ok x =>
    obtain ⟨k, exp⟩ := x
    obtain ⟨s, hs⟩ := dated k exp hr
    show (W.chainTime >>= _) = Fault.erase (W.chainTime.plain >>= _)
    rw [erase_bind, erase_plain]
    cases W.chainTime with
    | error e => rfl
    | ok now =>
      simp only [ok_then]
      split
      · simp only [hs]; rfl
      · rfl

theorem activeKey_erase (W : World) (clock : Int → Res Str) (records : Records) (now id : Int) (dated : ∀ k exp, records id = .ok (k, exp) → ∃ s, clock exp = .ok s) :
    (lookingUp W records).activeKey now id = Fault.erase (activeKeyF clock records now id) := by
  unfold World.activeKey activeKeyF lookingUp
  dsimp only
  rw [erase_bind]
  cases hr : records id with
  | error f => rfl
  | ok x =>
    obtain ⟨k, exp⟩ := x
    obtain ⟨s, hs⟩ := dated k exp hr
    show (if exp ≤ now then _ else _) = Fault.erase (if exp ≤ now then _ else _)
    split
    · simp only [hs]; rfl
    · rfl

/-- **C124** These are the exceptions of `record_update` and `name_transfer`, if the times at which 3Bots expire can be printed as dates: what
comes before funding raises this, and then nothing is posted. -/
theorem C124_bots_raise_partial (W : World) (clock : Int → Res Str) (records : Records) (dated : ∀ id k exp, records id = .ok (k, exp) → ∃ s, clock exp = .ok s) :
    (∀ L id months na nr aa ar src refund f, W.updatableF clock records L id months na nr aa ar = .error f →
      (lookingUp W records).recordUpdate L id months na nr aa ar src refund = ⟨[], .error f.kind⟩) ∧
    (∀ sender receiver names src refund f, W.transferF clock records sender receiver names = .error f →
      (lookingUp W records).nameTransfer sender receiver names src refund = ⟨[], .error f.kind⟩) := by
  constructor
  · intro L id months na nr aa ar src refund f h
    unfold World.recordUpdate
    unfold World.updatableF at h
    rcases bindF_err h with h | ⟨t, ht, h⟩
    · obtain ⟨e, rfl, he⟩ := plain_err.1 h; rw [he]; rfl
    · rw [plain_ok.1 ht]
      show Outcome.ofRes _ _ = _
      rw [activeOrPaid_erase W clock records id months (dated id)]
      rcases bindF_err h with h | ⟨k, _, h⟩
      · rw [h]; rfl
      · cases h
  · intro sender receiver names src refund f h
    have ht : (lookingUp W records).transfer sender receiver names = Fault.erase (W.transferF clock records sender receiver names) := by
      unfold World.transfer World.transferF
      rw [erase_bind, erase_plain]
      congr 1; funext a
      rw [erase_bind, erase_plain]
      congr 1; funext b
      rw [erase_bind, erase_plain]
      congr 1; funext ns
      split
      · rfl
      · rw [erase_bind, erase_plain]
        show (W.chainTime >>= _) = _
        congr 1; funext now
        rw [erase_bind, ← activeKey_erase W clock records now sender (dated sender)]
        congr 1; funext ka
        rw [erase_bind, ← activeKey_erase W clock records now receiver (dated receiver)]
        congr 1
    unfold World.nameTransfer
    rw [ht, h]; rfl

/-! ## Addresses -/

/-- **C124** An address refused as not owned: the exception carries the address that was given, and the wallet has no key under what was given. -/
theorem C124_address (W : World) (which : WhichKey) :
    (∀ u, W.keyForF which = .error (.registrationForbidden u) → WhichNames W.H which u ∧
      ∀ a, (which = .str a ∨ ∃ v, which = .uh v ∧ a = v.str W.H) → W.keys.get? a = none) ∧
    W.keyFor which = Fault.erase (W.keyForF which) ∧
    (∀ u, ownKeyF W.H W.keys W.addresses which = .error (.notInWallet u) → WhichNames W.H which u ∧
      ∀ a, (which = .str a ∨ ∃ v, which = .uh v ∧ a = v.str W.H) → W.keys.get? a = none) ∧
    ownKey W.H W.keys W.addresses which = Fault.erase (ownKeyF W.H W.keys W.addresses which) := by
  cases which with
  | new =>
    refine ⟨fun u h => ?_, (erase_plain _).symm, fun u h => ?_, (erase_plain _).symm⟩ <;>
      (obtain ⟨e, he, _⟩ := plain_err.1 h; cases he)
  | index i =>
    refine ⟨fun u h => ?_, (erase_plain _).symm, fun u h => ?_, (erase_plain _).symm⟩ <;>
      (obtain ⟨e, he, _⟩ := plain_err.1 h; cases he)
  | other =>
    refine ⟨fun u h => (by cases h), rfl, fun u h => ?_, rfl⟩
    obtain ⟨e, he, _⟩ := plain_err.1 h; cases he
  | uh v =>
    unfold World.keyForF World.keyFor ownKeyF ownKey
    dsimp only
    cases hk : W.keys.get? (v.str W.H) with
    | some k => exact ⟨fun u h => (by cases h), rfl, fun u h => (by cases h), rfl⟩
    | none =>
      have hno : ∀ a, (WhichKey.uh v = .str a ∨ ∃ v', WhichKey.uh v = .uh v' ∧ a = v'.str W.H) → W.keys.get? a = none := by
        rintro a (h | ⟨v', h, rfl⟩)
        · cases h
        · cases h; exact hk
      exact ⟨fun u h => (by cases h; exact ⟨rfl, hno⟩), rfl, fun u h => (by cases h; exact ⟨rfl, hno⟩), rfl⟩
  | str s =>
    unfold World.keyForF World.keyFor ownKeyF ownKey
    dsimp only
    cases hk : W.keys.get? s with
    | some k => exact ⟨fun u h => (by cases h), rfl, fun u h => (by cases h), rfl⟩
    | none =>
      have hno : ∀ a, (WhichKey.str s = .str a ∨ ∃ v', WhichKey.str s = .uh v' ∧ a = v'.str W.H) → W.keys.get? a = none := by
        rintro a (h | ⟨v', h, rfl⟩)
        · cases h; exact hk
        · cases h
      cases hu : UnlockHash.fromJson W.H (.str s) with
      | error e => exact ⟨fun u h => (by cases h), rfl, fun u h => (by cases h), rfl⟩
      | ok v => exact ⟨fun u h => (by cases h; exact ⟨hu, hno⟩), rfl, fun u h => (by cases h; exact ⟨hu, hno⟩), rfl⟩

/-! ## What is false -/

/-- **C124** (false of the code) A contract in an exception of `redeem` or `refund` says that it is spent, although it is not: whenever the
exception is about the secret, the time or the address, the contract is told to be unspent, but the contract in the exception is not. -/
theorem C124_unspent_false {W : SwapWorld} {clock : Int → Res Str} {told : Told} (q : QuietWorld W told) {id secret : BVal}
    {c : Contract} (h : W.redeemableF told id secret = .error (.invalidSecret c) ∨ W.redeemableF told id secret = .error (.forbidden c) ∨
      W.refundableF clock told id = .error (.forbidden c)) : IsTold told id c ∧ c.unspent = false := by
  have hc : ∀ {g : Contract → ResF Unit} {f : Fault}, (∀ d, g d = .error f → f = .invalidSecret d ∨ f = .forbidden d ∨ ∃ e, f = .plain e) →
      (f = .invalidSecret c ∨ f = .forbidden c) →
      (do let d ← W.fetchF told id false; g d; return d : ResF Contract) = .error f → W.fetchF told id false = .ok c := by
    intro g f hg hf h
    rcases bindF_err h with h | ⟨d, hd, h⟩
    · have := fetchF_err q h
      rcases hf with rfl | rfl <;> exact absurd this (by simp [BlamesFetch])
    · rcases bindF_err h with h | ⟨_, _, h⟩
      · rw [hd]
        rcases hg d h with h | h | ⟨e, h⟩ <;> rcases hf with hf | hf <;> rw [hf] at h <;> cases h <;> rfl
      · cases h
  have red : ∀ d f, W.mayRedeemF d secret = .error f → f = .invalidSecret d ∨ f = .forbidden d ∨ ∃ e, f = .plain e := by
    intro d f h
    rcases bindF_err h with h | ⟨b, _, h⟩
    · obtain ⟨e, rfl, _⟩ := plain_err.1 h; exact .inr (.inr ⟨e, rfl⟩)
    · cases b with
      | false => cases h; exact .inl rfl
      | true =>
        rcases bindF_err h with h | ⟨l, _, h⟩
        · obtain ⟨e, rfl, _⟩ := plain_err.1 h; exact .inr (.inr ⟨e, rfl⟩)
        · rcases bindF_err h with h | ⟨b, _, h⟩
          · obtain ⟨e, rfl, _⟩ := plain_err.1 h; exact .inr (.inr ⟨e, rfl⟩)
          · cases b with
            | false => cases h; exact .inr (.inl rfl)
            | true => cases h
  have ref : ∀ d f, W.mayRefundF clock d = .error f → f = .invalidSecret d ∨ f = .forbidden d ∨ ∃ e, f = .plain e := by
    intro d f h
    rcases bindF_err h with h | ⟨now, _, h⟩
    · obtain ⟨e, rfl, _⟩ := plain_err.1 h; exact .inr (.inr ⟨e, rfl⟩)
    · by_cases hl : now < d.lockTime
      · rw [if_pos hl] at h
        rcases bindF_err h with h | ⟨_, _, h⟩
        · obtain ⟨e, rfl, _⟩ := plain_err.1 h; exact .inr (.inr ⟨e, rfl⟩)
        · rcases bindF_err h with h | ⟨_, h', _⟩
          · cases h; exact .inr (.inl rfl)
          · cases h'
      · rw [if_neg hl] at h
        rcases bindF_err h with h | ⟨l, _, h⟩
        · obtain ⟨e, rfl, _⟩ := plain_err.1 h; exact .inr (.inr ⟨e, rfl⟩)
        · rcases bindF_err h with h | ⟨b, _, h⟩
          · obtain ⟨e, rfl, _⟩ := plain_err.1 h; exact .inr (.inr ⟨e, rfl⟩)
          · cases b with
            | false => cases h; exact .inr (.inl rfl)
            | true => cases h
  rcases h with h | h | h
  · exact fetchF_ok (hc (fun d => red d _) (.inl rfl) h)
  · exact fetchF_ok (hc (fun d => red d _) (.inr rfl) h)
  · exact fetchF_ok (hc (fun d => ref d _) (.inr rfl) h)

/-- A clock as `time.localtime` is on a common platform: it cannot show times from 2^63 on. -/
def commonClock (t : Int) : Res Str := if t ≥ 2 ^ 63 then .error .overflowError else .ok (intStr t)

/-- The explorers tell about a contract with this lock time (and that it was not spent). -/
def toldUntil (lock : Int) : Told := fun _ =>
  .ok (⟨⟨some ⟨false, 10, 0⟩⟩, .atomicSwap (addrOf key1) (addrOf key2) (some (toyHash (List.replicate 32 7))) lock, ⟨List.replicate 32 9⟩⟩, none)

/-- **C124** (false of the code) A contract that is locked for longer than the platform can tell the date: `refund` raises `OverflowError`, not the
exception that says what is wrong. -/
theorem C124_undated_false : ∃ (W : SwapWorld) (told : Told) (id : BVal) (c : Contract), IsTold told id c ∧ (∃ now, W.chainTime = .ok now ∧ now < c.lockTime) ∧
    c.lockTime < 2 ^ 64 ∧ W.refundableF commonClock told id = .error (.plain .overflowError) :=
  ⟨swapWorld [key1] 1600000000, toldUntil (2 ^ 63), .bytes (List.replicate 32 9),
    ⟨⟨List.replicate 32 9⟩, addrOf key1, addrOf key2, some (toyHash (List.replicate 32 7)), 2 ^ 63, ⟨some ⟨false, 10, 0⟩⟩, false⟩,
    ⟨_, rfl, rfl, rfl, rfl⟩, ⟨1600000000, rfl, by decide⟩, by decide, by rfl⟩

/-- The address of the first key with its hash in capital letters. -/
def capitals : Str := ((addrOf key1).str toyHash).take 2 ++ upper ((((addrOf key1).str toyHash).drop 2).take 64) ++ ((addrOf key1).str toyHash).drop 66

/-- **C124** (false of the code) An address of the wallet that is given in capital letters is an address (it reads as the address of the wallet), but
it is refused as not owned. -/
theorem C124_spelling_false : ∃ (W : World) (s : Str) (u : UnlockHash) (k : PublicKey), Names W.H s u ∧ W.keys.get? (u.str W.H) = some k ∧
    W.addresses = .ok [u.str W.H] ∧ W.keyForF (.str s) = .error (.registrationForbidden u) ∧
    ownKeyF W.H W.keys W.addresses (.str s) = .error (.notInWallet u) := by
  have h1 : (UnlockHash.fromJson toyHash (.str capitals)).toOption = some (addrOf key1) := by decide +kernel
  have h2 : (swapWorld [key1] 0).keys.get? ((addrOf key1).str toyHash) = some key1 := by decide +kernel
  have h3 : (swapWorld [key1] 0).keys.get? capitals = none := by decide +kernel
  have h1' : UnlockHash.fromJson toyHash (.str capitals) = .ok (addrOf key1) := by
    cases h : UnlockHash.fromJson toyHash (.str capitals) with
    | error e => rw [h] at h1; cases h1
    | ok v => rw [h] at h1; cases h1; rfl
  refine ⟨(swapWorld [key1] 0).toWorld, capitals, addrOf key1, key1, h1', h2, rfl, ?_, ?_⟩
  · unfold World.keyForF; simp only [h3]
    show (do let u ← (UnlockHash.fromJson toyHash (.str capitals)).plain; throw (.registrationForbidden u) : ResF (Keys × PublicKey)) = _
    rw [h1']; rfl
  · unfold ownKeyF; simp only [h3]
    show (do let u ← (UnlockHash.fromJson toyHash (.str capitals)).plain; throw (.notInWallet u) : ResF PublicKey) = _
    rw [h1']; rfl

/-! ## Examples -/

/-- What a swap operation raised: the class, and the lock time and `unspent` of the contract it carries. -/
def carried : Fault → Option (Int × Bool)
  | .forbidden c => some (c.lockTime, c.unspent)
  | .invalidSecret c => some (c.lockTime, c.unspent)
  | .contractInvalid c => some (c.lockTime, c.unspent)
  | .contractSpent c _ => some (c.lockTime, c.unspent)
  | _ => none

/-- The exception, if there is one. -/
def faultOf {α : Type} : ResF α → Option Fault
  | .ok _ => none
  | .error f => some f

-- a wrong secret, a wallet that is not the receiver, a refund too early, a refund by another wallet
example : ((faultOf ((swapWorld [key2] 1600000000).redeemableF (toldUntil 1700000000) (.bytes (List.replicate 32 9)) (.bytes (List.replicate 32 8)))).map fun f => (f.kind, carried f)) =
    some (.atomicSwapInvalidSecret, some (1700000000, false)) := by decide +kernel
example : ((faultOf ((swapWorld [key1] 1600000000).redeemableF (toldUntil 1700000000) (.bytes (List.replicate 32 9)) (.bytes (List.replicate 32 7)))).map fun f => (f.kind, carried f)) =
    some (.atomicSwapForbidden, some (1700000000, false)) := by decide +kernel
example : ((faultOf ((swapWorld [key1] 1600000000).refundableF commonClock (toldUntil 1700000000) (.bytes (List.replicate 32 9)))).map fun f => (f.kind, carried f)) =
    some (.atomicSwapForbidden, some (1700000000, false)) := by decide +kernel
example : ((faultOf ((swapWorld [key2] 1800000000).refundableF commonClock (toldUntil 1700000000) (.bytes (List.replicate 32 9)))).map fun f => (f.kind, carried f)) =
    some (.atomicSwapForbidden, some (1700000000, false)) := by decide +kernel
-- verify shows the contract as unspent
example : ((faultOf ((swapWorld [key2] 1600000000).verifyF commonClock (fun _ => .error .valueError) (toldUntil 1700000000) (.bytes (List.replicate 32 9)) (.int 11) .none .none false false none)).map
    fun f => (f.kind, carried f)) = some (.atomicSwapContractInvalid, some (1700000000, true)) := by decide +kernel
-- the assumptions hold there
example : QuietWorld (swapWorld [key2] 1600000000) (toldUntil 1700000000) := ⟨fun _ => quiet_ok _, quiet_ok _, quiet_ok _⟩
example : ∀ t, Quiet (commonClock t) := by
  intro t; unfold commonClock; split
  · exact quiet_err (by simp [Telling])
  · exact quiet_ok _
example : ∀ c, IsTold (toldUntil 1700000000) .none c → ∃ s, commonClock c.lockTime = .ok s := by
  rintro c ⟨co, h, hs⟩
  cases h
  obtain ⟨_, _, h⟩ := hs
  have hl : 1700000000 = c.lockTime := (Condition.atomicSwap.inj h).2.2.2
  rw [← hl]
  exact ⟨intStr 1700000000, by rfl⟩
-- an amount equal to the fee
example : (faultOf ((swapWorld [key2] 0).swapAmountF (.cur (swapWorld [key2] 0).fee))).map Fault.kind = some .atomicSwapInsufficientAmount := by decide +kernel
-- explorers
example : (match explorerGetF (fun _ => none) (fun _ => .unreachable) "/explorer".toList [some "a".toList, some "b".toList] [some "b".toList, some "a".toList] with
    | .error (.notAvailable ep l) => some (ep, l)
    | _ => none) = some ("/explorer".toList, [some "a".toList, some "b".toList]) := by decide
-- 3Bots: the second one expired
example : (match ({ demoWorld with chainTime := .ok 100 } : World).transferF commonClock (fun id => .ok (key1, if id = 2 then 50 else 200)) 1 2 (some [.str "chatbot.example".toList]) with
    | .error (.botInactive id exp) => some (id, exp)
    | _ => none) = some (2, 50) := by decide +kernel
example : Looked (fun id => .ok (key1, if id = 2 then 50 else 200)) := by intro id f h; cases h

end TF.Props
