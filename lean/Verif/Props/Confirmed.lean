import Verif.Spec.Confirmed
import Verif.Props.Redeem
import Verif.Props.Client
/-! # C85 (atomic swaps) and C104: exceptions, results and submissions -/
namespace TF.Props
open TF TF.Spec

/-! ## C104 -/

theorem ofRes_confirmed {α β : Type} {W : World} {r : Res α} {f : α → Outcome β} (h : ∀ a, r = .ok a → Confirmed W (f a)) : Confirmed W (Outcome.ofRes r f) := by
  cases r with
  | error e => exact .inl rfl
  | ok a => exact h a rfl

/-- Posting first, whatever comes then. -/
theorem posts_confirmed {α β : Type} {W : World} {t : Tx} {g : Hash → Res α} {f : α → Res β} : Confirmed W ⟨[t], (W.put t >>= g) >>= f⟩ := by
  refine .inr ⟨t, rfl, fun a h => ?_⟩
  cases hp : W.put t with
  | error e => simp only [hp, bind, Except.bind] at h; cases h
  | ok id => exact ⟨id, rfl⟩

theorem submit_confirmed {W : World} {w : Wallets} {t : Tx} : Confirmed W (W.submit w t) := by
  refine ofRes_confirmed fun ok _ => ?_
  cases ok with
  | false => exact .inl rfl
  | true => exact posts_confirmed

theorem signSubmit_confirmed {W : World} {w : Wallets} {t : Tx} : Confirmed W (W.signSubmit w t) := ofRes_confirmed fun _ _ => submit_confirmed

/-- The keys do not matter. -/
theorem confirmed_keys {α : Type} {W : World} (k : Keys) {o : Outcome α} (h : Confirmed { W with keys := k } o) : Confirmed W o := h

/-- **C104** (payments). -/
theorem C104_payments (W : World) (src : Source) (refund : Recipient) (data : DataArg) :
    (∀ r amt lock, Confirmed W (W.coinsSend r amt src refund lock data)) ∧ ∀ b, Confirmed W (W.builderSend b src refund data).2 := by
  constructor
  · intro r amt lock
    unfold World.coinsSend
    split
    · split
      · exact ofRes_confirmed fun _ _ => ofRes_confirmed fun _ _ => signSubmit_confirmed
      · exact .inl rfl
    · exact ofRes_confirmed fun _ _ => ofRes_confirmed fun _ _ => signSubmit_confirmed
  · intro b
    unfold World.builderSend
    simp only
    split
    · exact .inl rfl
    · exact ofRes_confirmed fun _ _ => ofRes_confirmed fun _ _ => signSubmit_confirmed

/-- **C104** (minting). -/
theorem C104_minting (W : World) (nonce : Bytes) (r : Recipient) (data : DataArg) :
    (∀ amt lock, Confirmed W (W.coinsNew nonce r amt lock data)) ∧ Confirmed W (W.definitionSet nonce r data) := by
  refine ⟨fun amt lock => ofRes_confirmed fun _ _ => ofRes_confirmed fun _ _ => signSubmit_confirmed, ?_⟩
  refine ofRes_confirmed fun _ _ => ofRes_confirmed fun t _ => ofRes_confirmed fun ok _ => ?_
  cases ok with
  | false => exact .inl rfl
  | true =>
    refine .inr ⟨t, rfl, fun a h => ?_⟩
    cases hp : W.put t with
    | error e => simp only [hp, if_true, bind, Except.bind] at h; cases h
    | ok id => exact ⟨id, rfl⟩

/-- **C104** (3Bots and ERC20 registrations). -/
theorem C104_bots (W : World) (src : Source) (refund : Recipient) :
    (∀ L months names addresses keyIndex, Confirmed W (W.recordNew L months names addresses keyIndex src refund)) ∧
    (∀ L id months na nr aa ar, Confirmed W (W.recordUpdate L id months na nr aa ar src refund)) ∧
    (∀ sender receiver names, Confirmed W (W.nameTransfer sender receiver names src refund)) ∧
    ∀ which, Confirmed W (W.addressRegister which src refund) := by
  refine ⟨?_, ?_, ?_, ?_⟩
  · intros; exact ofRes_confirmed fun _ _ => ofRes_confirmed fun _ _ => ofRes_confirmed fun w hw => ofRes_confirmed fun _ _ => ofRes_confirmed fun k _ =>
      confirmed_keys k.1 signSubmit_confirmed
  · intros; exact ofRes_confirmed fun _ _ => ofRes_confirmed fun _ _ => ofRes_confirmed fun _ _ => ofRes_confirmed fun w hw => ofRes_confirmed fun _ _ =>
      signSubmit_confirmed
  · intros; exact ofRes_confirmed fun _ _ => ofRes_confirmed fun _ _ => ofRes_confirmed fun w hw => ofRes_confirmed fun _ _ => signSubmit_confirmed
  · intros; exact ofRes_confirmed fun k _ => ofRes_confirmed fun w hw => ofRes_confirmed fun _ _ => confirmed_keys k.1 signSubmit_confirmed

/-- **C104** (signing a transaction, given as object or JSON). -/
theorem C104_transaction_sign (W : World) (submit : Bool) :
    (∀ t, Confirmed W (W.transactionSign t submit)) ∧ ∀ L j, Confirmed W (W.jsonSign L j submit) := by
  have key : ∀ t, Confirmed W (W.transactionSign t submit) := by
    intro t
    refine ofRes_confirmed fun _ _ => ofRes_confirmed fun _ _ => ofRes_confirmed fun _ _ => ?_
    split
    · exact .inl rfl
    refine ofRes_confirmed fun _ _ => ofRes_confirmed fun _ _ => ?_
    split
    · exact posts_confirmed
    · exact .inl rfl
  exact ⟨key, fun L j => ofRes_confirmed fun t _ => key t⟩

theorem createContract_confirmed {W : SwapWorld} {r : Recipient} {amt : CVal} {time : LockVal} {src : Source} {refund : Recipient} {data : DataArg} {hash : Bytes}
    {submit : Bool} : Confirmed W.toWorld (W.resultOf (W.createContract r amt time src refund data hash submit)) := by
  have key : Confirmed W.toWorld (W.createContract r amt time src refund data hash submit) := by
    refine ofRes_confirmed fun _ _ => ofRes_confirmed fun _ _ => ofRes_confirmed fun _ _ => ofRes_confirmed fun _ _ => ofRes_confirmed fun t _ => ?_
    unfold SwapWorld.submitContract
    split
    · refine ofRes_confirmed fun ok _ => ?_
      cases ok with
      | false => exact .inl rfl
      | true => exact posts_confirmed
    · exact .inl rfl
  rcases key with h | ⟨t, h1, h2⟩
  · exact .inl h
  · refine .inr ⟨t, h1, fun a h => ?_⟩
    obtain ⟨x, hx, -⟩ := bind_ok h
    exact h2 x hx

theorem claimSubmit_confirmed {W : SwapWorld} {t : Tx} : Confirmed W.toWorld (W.claimSubmit t) := by
  refine ofRes_confirmed fun t1 _ => ofRes_confirmed fun ok _ => ?_
  cases ok with
  | false => exact .inl rfl
  | true =>
    refine .inr ⟨t1, rfl, fun a h => ?_⟩
    simp only [if_true] at h
    obtain ⟨id, hid, -⟩ := bind_ok (show (W.put t1 >>= _) = .ok a from h)
    exact ⟨id, hid⟩

/-- **C104** (atomic swaps). -/
theorem C104_swaps (W : SwapWorld) (data : DataArg) :
    (∀ secret r amt time src refund submit, Confirmed W.toWorld (W.initiate secret r amt time src refund data submit)) ∧
    (∀ r amt hash time src refund submit, Confirmed W.toWorld (W.participate r amt hash time src refund data submit)) ∧
    (∀ id secret, Confirmed W.toWorld (W.redeem id secret data)) ∧ ∀ id, Confirmed W.toWorld (W.refund id data) := by
  refine ⟨?_, ?_, ?_, ?_⟩
  · intros; exact ofRes_confirmed fun _ _ => createContract_confirmed
  · intros; exact ofRes_confirmed fun _ _ => createContract_confirmed
  · intros; exact ofRes_confirmed fun _ _ => ofRes_confirmed fun _ _ => ofRes_confirmed fun _ _ => ofRes_confirmed fun _ _ => claimSubmit_confirmed
  · intros; exact ofRes_confirmed fun _ _ => ofRes_confirmed fun _ _ => ofRes_confirmed fun _ _ => claimSubmit_confirmed

/-- Payments are submitted, and confirmed. -/
example : (demoWorld.coinsSend (.uh (addrOf key2)) (.int 8) .none .none .none .none).posted.length = 1 ∧
    ((demoWorld.coinsSend (.uh (addrOf key2)) (.int 8) .none .none .none .none).result.map Prod.snd) = .ok true := by decide +kernel

/-! ## C85 for atomic swaps -/

/-- **C85** (`participate`, what holds; `initiate` is `C91_secret_partial`). -/
theorem C85_participate_partial (W : SwapWorld) (r : Recipient) (amt : CVal) (hash : BVal) (time : LockVal) (src : Source) (refund : Recipient)
    (data : DataArg) (submit : Bool) (e : Err) (he : (W.participate r amt hash time src refund data submit).result = .error e) :
    (W.participate r amt hash time src refund data submit).posted = [] ∨
    ∃ t w, (W.participate r amt hash time src refund data submit).posted = [t] ∧ W.balance = .ok w ∧ (Trouble W.toWorld w t ∨ W.chainTime = .error e) := by
  unfold SwapWorld.participate at he ⊢
  cases hx : secretHashNew hash with
  | error e => exact .inl rfl
  | ok x =>
    rw [hx] at he
    simp only [Outcome.ofRes] at he ⊢
    rcases resultOf_cases W r amt time src refund data x submit _ rfl with ⟨e, ho⟩ | ⟨w, t', c', h1, h2, h3, h4, ⟨ho, h5⟩ | ⟨h5, h6, h7, h8⟩⟩
    · rw [ho]; exact .inl rfl
    · rw [ho] at he; cases he
    · refine .inr ⟨t', w, h7, h1, ?_⟩
      rcases h8 with h8 | ⟨e', h8, h9⟩
      · rw [h8] at he; cases he
      · rw [h8] at he; cases he
        rcases h9 with h9 | h9
        · exact .inl (Classical.byContradiction fun hn => by rw [afterCreate_ok hn] at h9; cases h9)
        · exact .inr h9

theorem ofRes_claim {α : Type} {W : SwapWorld} {r : Res α} {f : α → Outcome Tx} (h : ∀ a, r = .ok a → ClaimRaisesBefore W (f a)) :
    ClaimRaisesBefore W (Outcome.ofRes r f) := by
  cases r with
  | error e => intro t ht; exact .inl rfl
  | ok a => exact h a rfl

theorem claimSubmit_raises {W : SwapWorld} (hH : Digest32 W.H) {t : Tx} : ClaimRaisesBefore W (W.claimSubmit t) := by
  refine ofRes_claim fun t1 _ => ofRes_claim fun ok _ => ?_
  cases ok with
  | false => intro e _; exact .inl rfl
  | true =>
    intro e he
    refine .inr ⟨t1, rfl, ?_⟩
    simp only [if_true] at he
    unfold SwapWorld.afterClaim at he
    cases hp : W.put t1 with
    | error e' => simp only [hp, bind, Except.bind] at he; cases he; exact .inr (.inl rfl)
    | ok id =>
      cases hw : W.balance with
      | error e' => simp only [hp, hw, bind, Except.bind] at he; cases he; exact .inl rfl
      | ok w =>
        refine .inr (.inr ⟨w, rfl, Classical.byContradiction fun hn => ?_⟩)
        cases ha : W.addresses with
        | error e => exact absurd (.addresses e ha) hn
        | ok addrs =>
          obtain ⟨y, h2⟩ := claimOutputs_ok hH hn (addrs := addrs) (l := t1.coinOutputs) (k := 0) (t := t1) (w := w) (fun co h => h) (fun _ h => h) rfl rfl (by simp)
          simp only [hp, hw, ha, h2, bind, Except.bind, pure, Except.pure] at he
          cases he

/-- **C85** (`redeem` and `refund`, what holds). -/
theorem C85_claims_partial (W : SwapWorld) (hH : Digest32 W.H) (id : BVal) (data : DataArg) :
    (∀ secret, ClaimRaisesBefore W (W.redeem id secret data)) ∧ ClaimRaisesBefore W (W.refund id data) :=
  ⟨fun _ => ofRes_claim fun _ _ => ofRes_claim fun _ _ => ofRes_claim fun _ _ => ofRes_claim fun _ _ => claimSubmit_raises hH,
    ofRes_claim fun _ _ => ofRes_claim fun _ _ => ofRes_claim fun _ _ => claimSubmit_raises hH⟩

/-- A claim whose confirmation gets lost: it is submitted, and the exception says so. -/
def unconfirmed : SwapWorld := { claimWorld [key2] 1400000000 with put := fun _ => .error .explorerNotAvailable }

example : (unconfirmed.redeem (.bytes (List.replicate 32 9)) (.bytes (List.replicate 32 7)) .none).posted.length = 1 ∧
    (unconfirmed.redeem (.bytes (List.replicate 32 9)) (.bytes (List.replicate 32 7)) .none).result = .error .explorerNotAvailable := by decide +kernel
/-- With a wrong secret nothing is submitted. -/
example : (unconfirmed.redeem (.bytes (List.replicate 32 9)) (.bytes (List.replicate 32 8)) .none).posted = [] ∧
    (unconfirmed.redeem (.bytes (List.replicate 32 9)) (.bytes (List.replicate 32 8)) .none).result = .error .atomicSwapInvalidSecret := by decide +kernel
/-- A mint definition whose confirmation gets lost. -/
def unconfirmedMint : World := { demoBots with put := fun _ => .error .explorerNotAvailable }
example : (unconfirmedMint.definitionSet (List.replicate 8 1) (.uh (addrOf key2)) .none).posted.length = 1 ∧
    (unconfirmedMint.definitionSet (List.replicate 8 1) (.uh (addrOf key2)) .none).result.map Prod.snd = .error .explorerNotAvailable := by decide +kernel

end TF.Props
