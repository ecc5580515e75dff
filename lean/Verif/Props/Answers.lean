import Verif.Props.WalletBalance
import Verif.Spec.Answers
/-! # C94, C95, C63, C96: answers of the documented form are accepted and understood -/
namespace TF.Props
open TF TF.Spec

/-! ## C94 -/

theorem idx_obj {l : List (String × Json)} {k : String} {v : Json} (h : jget l k = some v) : (Json.obj l).idx k = .ok v := by
  unfold Json.idx; simp only [h]

theorem says_confirmation {e : Json} : (SaysUnconfirmed e → confirmation e = .ok (true, -1)) ∧
    ∀ n, SaysHeight e n → 0 ≤ n → confirmation e = .ok (false, n) := by
  constructor
  · rintro ⟨l, rfl, hu⟩
    unfold confirmation
    rw [getD_some hu]
    rfl
  · rintro n ⟨l, rfl, hu, hh⟩ hn
    have h1 : (Json.obj l).getD "unconfirmed" (.bool false) = .ok (.bool false) := by
      rcases hu with hu | hu
      · exact getD_none hu
      · exact getD_some hu
    unfold confirmation
    rw [h1]
    show ((Json.obj l).getD "height" .null >>= fun j => heightOf j >>= fun h => pure (false, h)) = _
    rw [getD_some hh]
    show (heightOf (.int n) >>= fun h => pure (false, h)) = _
    have : heightOf (.int n) = .ok n := by
      unfold heightOf
      simp only [Json.toInt, bind, Except.bind]
      rw [if_neg (by omega)]; rfl
    rw [this]; rfl

theorem lists_mapM {α : Type} {e : Json} {field : String} {n : Nat} {read : Json → Res α} (h : Lists e field n read) :
    ∃ l r, e.listField field = .ok l ∧ l.length = n ∧ l.mapM read = .ok r := by
  obtain ⟨l, h1, h2, h3⟩ := h
  have : ∀ l : List Json, (∀ j ∈ l, ∃ x, read j = .ok x) → ∃ r, l.mapM read = .ok r := by
    intro l
    induction l with
    | nil => intro _; exact ⟨[], rfl⟩
    | cons j l ih =>
      intro h
      obtain ⟨x, hx⟩ := h j (by simp)
      obtain ⟨r, hr⟩ := ih fun y hy => h y (by simp [hy])
      exact ⟨x :: r, by rw [List.mapM_cons, hx, hr]; rfl⟩
  obtain ⟨r, hr⟩ := this l h3
  exact ⟨l, r, h1, h2, hr⟩

theorem parse_good {L : IpLib} {H : Bytes → Bytes} {e : Json} {t : Tx} {id : Hash} (h : EntryFor L H e t id) {u : Bool} {n : Int}
    (hc : confirmation e = .ok (u, n)) : ∃ ct, parseTx L H e = .ok ct ∧ ct.id = id ∧ ct.unconfirmed = u ∧ ct.height = n := by
  obtain ⟨⟨raw, h1, h2⟩, ⟨s, h3, h4⟩, ⟨ins, h5, h6⟩, h7, h8, h9⟩ := h
  obtain ⟨pl, cos, p1, p2, p3⟩ := lists_mapM h6
  obtain ⟨ol, ids, o1, o2, o3⟩ := lists_mapM h7
  obtain ⟨sl, sos, s1, s2, s3⟩ := lists_mapM h8
  obtain ⟨ql, sids, q1, q2, q3⟩ := lists_mapM h9
  have hl : ∀ {a b : Nat}, b = a → sameLength a b = .ok () := by
    intro a b h; unfold sameLength; rw [if_neg (by omega)]
  have hi : t.inputsList = .ok ins := by unfold Tx.inputsList; rw [h5]
  refine ⟨⟨((t.attachParents cos).setIds 0 ids).attachStakes sos sids, id, u, n⟩, ?_, rfl, rfl, rfl⟩
  unfold parseTx
  simp only [h1, h2, h3, show (Json.str s).bval = .str s from rfl, h4, hi, p1, p3, hl p2, o1, o3, hl o2, s1, s3, hl s2, q1, q3, hl q2, hc, bind, Except.bind]
  rfl

/-- **C94**: an entry of the documented form is accepted, and the transaction has the entry's id; it is unconfirmed if the entry says so, and
otherwise has the height the entry gives, also if that is 0. -/
theorem C94_accepted {L : IpLib} {H : Bytes → Bytes} {e : Json} {t : Tx} {id : Hash} (h : EntryFor L H e t id) :
    (SaysUnconfirmed e → ∃ ct, parseTx L H e = .ok ct ∧ ct.id = id ∧ ct.unconfirmed = true) ∧
    ∀ n, SaysHeight e n → 0 ≤ n → ∃ ct, parseTx L H e = .ok ct ∧ ct.id = id ∧ ct.unconfirmed = false ∧ ct.height = n := by
  constructor
  · intro hu
    obtain ⟨ct, h1, h2, h3, _⟩ := parse_good h (says_confirmation.1 hu)
    exact ⟨ct, h1, h2, h3⟩
  · intro n hn h0
    exact parse_good h (says_confirmation.2 n hn h0)

/-- `spendsA` as it is read from JSON. -/
def readA : TxV1 :=
  { coinInputs := [⟨coinA.id, .single key1 (some ⟨[], false⟩), none⟩], coinOutputs := [⟨⟨some ⟨false, 4000000000, -9⟩⟩, coinA.condition, ⟨[]⟩⟩],
    minerFees := [⟨some ⟨false, 1000000000, -9⟩⟩] }

/-- The hypotheses of `C94_accepted` are met, also for a transaction of the first block. -/
theorem entry_demo (height : Int) (u : Bool) : EntryFor noIp toyHash (entrySpends height u) (.v1 readA) ⟨List.replicate 32 12⟩ := by
  refine ⟨⟨_, rfl, by decide +kernel⟩, ⟨_, rfl, by decide +kernel⟩, ⟨_, rfl, _, rfl, rfl, ?_⟩, ⟨_, rfl, rfl, ?_⟩, ⟨[], rfl, rfl, by simp⟩, [], rfl, rfl, by simp⟩
  · intro j hj
    rw [List.mem_singleton.1 hj]
    exact ⟨{ coinA9 with id := ⟨[]⟩ }, by decide +kernel⟩
  · intro j hj
    rw [List.mem_singleton.1 hj]
    exact ⟨⟨List.replicate 32 3⟩, by decide +kernel⟩
example : SaysHeight (entrySpends 0 false) 0 ∧ SaysUnconfirmed (entrySpends 0 true) :=
  ⟨⟨_, rfl, .inr rfl, rfl⟩, _, rfl, rfl⟩

/-! ## C95 -/

theorem readPayouts_get {H : Bytes → Bytes} : ∀ (ids mps : List Json) (ps : List Payout), mps.length = ids.length → readPayouts H ids mps = .ok ps →
    ps.length = mps.length ∧ ∀ (i : Nat) p, ps[i]? = some p → ∃ a b, ids[i]? = some a ∧ mps[i]? = some b ∧ Payout.ofJson H a b = .ok p := by
  intro ids
  induction ids with
  | nil =>
    intro mps ps hl h
    cases mps with
    | nil => cases h; exact ⟨rfl, by simp⟩
    | cons _ _ => cases hl
  | cons a ids ih =>
    intro mps ps hl h
    cases mps with
    | nil => cases hl
    | cons b mps =>
      unfold readPayouts at h
      obtain ⟨p, hp, h⟩ := bind_ok h
      obtain ⟨ps', hps, h⟩ := bind_ok h
      cases h
      obtain ⟨e1, e2⟩ := ih mps ps' (by simpa using hl) hps
      refine ⟨by simp [e1], ?_⟩
      intro i q hq
      cases i with
      | zero => simp only [List.getElem?_cons_zero, Option.some.injEq] at hq ⊢; subst hq; exact ⟨a, b, rfl, rfl, hp⟩
      | succ i => simp only [List.getElem?_cons_succ] at hq ⊢; exact e2 i q hq

theorem readBlock_for {L : IpLib} {H : Bytes → Bytes} {b : Json} {k : Block} (h : readBlock L H b = .ok k) : BlockFor L H b k := by
  unfold readBlock at h
  obtain ⟨ts, h1, h⟩ := bind_ok h
  obtain ⟨l, h2, h⟩ := bind_ok h
  obtain ⟨txs, h3, h⟩ := bind_ok h
  obtain ⟨raw, h4, h⟩ := bind_ok h
  obtain ⟨par, h5, h⟩ := bind_ok h
  obtain ⟨parent, h6, h⟩ := bind_ok h
  obtain ⟨ids, h7, h⟩ := bind_ok h
  obtain ⟨mps, h8, h⟩ := bind_ok h
  obtain ⟨_, h9, h⟩ := bind_ok h
  obtain ⟨ps, h10, h⟩ := bind_ok h
  obtain ⟨n, h11, h⟩ := bind_ok h
  obtain ⟨height, h12, h⟩ := bind_ok h
  obtain ⟨t, h13, h⟩ := bind_ok h
  obtain ⟨time, h14, h⟩ := bind_ok h
  obtain ⟨i, h15, h⟩ := bind_ok h
  obtain ⟨id, h16, h⟩ := bind_ok h
  cases h
  obtain ⟨e1, e2⟩ := readPayouts_get ids mps ps (sameLength_ok h9) h10
  refine ⟨⟨raw, par, t, h4, h5, h6, h13, h14, ⟨mps, h8, e1⟩, ?_⟩, ⟨i, h15, h16⟩, ⟨n, h11, h12⟩, ts, l, h1, h2, (mapM_get'' h3).1, (mapM_get'' h3).2⟩
  intro j p hp
  obtain ⟨a, m, ha, hm, ho⟩ := e2 j p hp
  unfold Payout.ofJson at ho
  obtain ⟨pid, o1, ho⟩ := bind_ok ho
  obtain ⟨v, o2, ho⟩ := bind_ok ho
  obtain ⟨val, o3, ho⟩ := bind_ok ho
  obtain ⟨ad, o4, ho⟩ := bind_ok ho
  obtain ⟨u, o5, ho⟩ := bind_ok ho
  cases ho
  exact ⟨a, m, v, ad, ⟨ids, h7, ha⟩, o1, ⟨mps, h8, hm⟩, o2, o3, o4, o5⟩

/-- **C95**: a block is returned as the explorer describes it: its id, parent, height, time, transactions and miner payouts, in order. -/
theorem C95_block_contents (C : Client) (arg : BlockArg) (k : Block) (h : C.blockGet arg = .ok k) :
    ∃ ep resp b, C.get ep = .ok resp ∧ resp.idx "block" = .ok b ∧ BlockFor C.L C.H b k ∧
      match arg with
      | .height i => ep = "/explorer/blocks/".toList ++ intStr i
      | .id v => ∃ id, Hash.new v = .ok id ∧ ep = "/explorer/hashes/".toList ++ id.str ∧ b.idx "blockid" = .ok (.str id.str) := by
  unfold Client.blockGet at h
  have h := keyErrorInvalid_ok h
  cases arg with
  | height i =>
    obtain ⟨resp, h1, h⟩ := bind_ok h
    obtain ⟨b, h2, h⟩ := bind_ok h
    exact ⟨_, resp, b, h1, h2, readBlock_for h, rfl⟩
  | id v =>
    obtain ⟨id, h0, h⟩ := bind_ok h
    obtain ⟨resp, h1, h⟩ := bind_ok h
    unfold readBlockById at h
    obtain ⟨_, _, h⟩ := bind_ok h
    obtain ⟨_, _, h⟩ := bind_ok h
    obtain ⟨b, h2, h⟩ := bind_ok h
    obtain ⟨j, h3, h⟩ := bind_ok h
    obtain ⟨_, h4, h⟩ := bind_ok h
    rw [isStr_eq (expect_ok h4)] at h3
    exact ⟨_, resp, b, h1, h2, readBlock_for h, id, h0, rfl, h3⟩

example : ((saying "blockid" [] [("block", blockEntry)]).blockGet (.height 7)).map (fun b => (b.id, b.payouts.length, b.txs.length)) =
    .ok (⟨List.replicate 32 21⟩, 1, 1) := by decide +kernel

theorem bind_of {α β : Type} {r : Res α} {f : α → Res β} {a : α} {b : Res β} (h : r = .ok a) (hf : f a = b) : (r >>= f) = b := by
  rw [h]; exact hf

theorem expect_other {s : Str} {type : Str} (h : s ≠ type) : expect ((Json.str s).isStr type) = .error .explorerInvalidResponse := by
  have : (Json.str s).isStr type = false := by simpa [Json.isStr] using h
  unfold expect
  rw [this]
  rfl

/-- **C95**: an answer about something of another kind than asked for is refused, whatever else it contains. -/
theorem C95_other_kind (C : Client) (s : Str) (resp : Json) (hs : resp.idx "hashtype" = .ok (.str s)) (hget : ∀ ep, C.get ep = .ok resp) :
    (∀ v id, Hash.new v = .ok id →
      (s ≠ "transactionid".toList → C.transactionGet v = .error .explorerInvalidResponse) ∧
      (s ≠ "blockid".toList → C.blockGet (.id v) = .error .explorerInvalidResponse) ∧
      (s ≠ "coinoutputid".toList → C.coinOutputGet v = .error .explorerInvalidResponse) ∧
      (s ≠ "blockstakeoutputid".toList → C.stakeOutputGet v = .error .explorerInvalidResponse)) ∧
    (s ≠ "unlockhash".toList →
      (∀ r c u, fromRecipient C.H r .none = .ok c → c.unlockhash C.H = .ok u → C.unlockhashGet r = .error .explorerInvalidResponse) ∧
      ∀ a u, SourceArg.resolve C.H a = .ok u → u.type = 1 → C.erc20Get a = .error .explorerInvalidResponse) := by
  refine ⟨?_, ?_⟩
  · intro v id hv
    refine ⟨?_, ?_, ?_, ?_⟩ <;> intro hne <;> have he := expect_other hne
    · unfold Client.transactionGet readTransaction
      simp only [hv, hget, hs, he, bind, Except.bind, keyErrorInvalid]
    · have h : readBlockById C.L C.H id.str resp = .error .explorerInvalidResponse := by
        unfold readBlockById
        exact bind_of hs (by rw [he]; rfl)
      have : C.blockGet (.id v) = keyErrorInvalid (readBlockById C.L C.H id.str resp) := by
        unfold Client.blockGet
        exact congrArg keyErrorInvalid (bind_of hv (bind_of (hget _) rfl))
      rw [this, h]; rfl
    · have h : readOutputTxs C.L C.H .coin resp = .error .explorerInvalidResponse := by
        unfold readOutputTxs
        exact bind_of hs (by rw [show OutputKind.hashType .coin = "coinoutputid".toList from rfl, he]; rfl)
      unfold Client.coinOutputGet
      refine bind_of hv (bind_of (hget _) ?_)
      rw [h]; rfl
    · have h : readOutputTxs C.L C.H .stake resp = .error .explorerInvalidResponse := by
        unfold readOutputTxs
        exact bind_of hs (by rw [show OutputKind.hashType .stake = "blockstakeoutputid".toList from rfl, he]; rfl)
      unfold Client.stakeOutputGet
      refine bind_of hv (bind_of (hget _) ?_)
      rw [h]; rfl
  · intro hne
    have he := expect_other hne
    refine ⟨?_, ?_⟩
    · intro r c u h1 h2
      unfold Client.unlockhashGet readHistory
      simp only [h1, h2, hget, hs, he, bind, Except.bind, keyErrorInvalid]
    · intro a u h1 h2
      unfold Client.erc20Get readErc20
      simp only [h1, hget, hs, he, bind, Except.bind, keyErrorInvalid]
      rw [if_neg (by rw [h2]; decide)]

example : ∃ resp, Json.idx resp "hashtype" = .ok (.str "blockid".toList) ∧ ∀ ep, (saying "blockid" []).get ep = .ok resp := ⟨_, rfl, fun _ => rfl⟩

theorem idx_missing {l : List (String × Json)} {k : String} (h : jget l k = none) : (Json.obj l).idx k = .error .keyError := by
  unfold Json.idx; simp only [h]

theorem bind_err {α β : Type} {r : Res α} {f : α → Res β} {e : Err} (h : r = .error e) : (r >>= f) = .error e := by
  rw [h]; rfl

theorem keyErrorInvalid_ne {α : Type} (r : Res α) : keyErrorInvalid r ≠ .error .keyError := by
  unfold keyErrorInvalid
  split
  · simp
  · rename_i h; intro he; exact h he

theorem keyErrorInvalid_of {α : Type} {r : Res α} (h : r = .error .keyError) : keyErrorInvalid r = .error .explorerInvalidResponse := by
  rw [h]; rfl

/-- **C95**: an answer without the very field that tells what was asked for is reported as an invalid answer of the explorer. -/
theorem C95_missing_field (C : Client) (fields : List (String × Json)) (hget : ∀ ep, C.get ep = .ok (.obj fields)) :
    (jget fields "hashtype" = none →
      (∀ v id, Hash.new v = .ok id → C.transactionGet v = .error .explorerInvalidResponse ∧ C.blockGet (.id v) = .error .explorerInvalidResponse ∧
        C.coinOutputGet v = .error .explorerInvalidResponse ∧ C.stakeOutputGet v = .error .explorerInvalidResponse) ∧
      (∀ r c u, fromRecipient C.H r .none = .ok c → c.unlockhash C.H = .ok u → C.unlockhashGet r = .error .explorerInvalidResponse) ∧
      ∀ a u, SourceArg.resolve C.H a = .ok u → u.type = 1 → C.erc20Get a = .error .explorerInvalidResponse) ∧
    (jget fields "block" = none → ∀ n, C.blockGet (.height n) = .error .explorerInvalidResponse) ∧
    (jget fields "record" = none → ∀ arg ep, LooksUp arg ep → C.recordGet arg = .error .explorerInvalidResponse) ∧
    (jget fields "mintcondition" = none → ∀ height, C.mintConditionGet height = .error .explorerInvalidResponse) := by
  refine ⟨?_, ?_, ?_, ?_⟩
  · intro hn
    have hk := idx_missing hn
    refine ⟨?_, ?_, ?_⟩
    · intro v id hv
      refine ⟨?_, ?_, ?_, ?_⟩
      · unfold Client.transactionGet
        refine bind_of hv (bind_of (hget _) (keyErrorInvalid_of ?_))
        unfold readTransaction
        exact bind_err hk
      · unfold Client.blockGet
        refine keyErrorInvalid_of ?_
        refine bind_of hv (bind_of (hget _) ?_)
        unfold readBlockById
        exact bind_err hk
      · unfold Client.coinOutputGet
        refine bind_of hv (bind_of (hget _) (keyErrorInvalid_of ?_))
        refine bind_err ?_
        unfold readOutputTxs
        exact bind_err hk
      · unfold Client.stakeOutputGet
        refine bind_of hv (bind_of (hget _) (keyErrorInvalid_of ?_))
        refine bind_err ?_
        unfold readOutputTxs
        exact bind_err hk
    · intro r c u h1 h2
      unfold Client.unlockhashGet
      refine bind_of h1 (bind_of h2 (bind_of (hget _) (keyErrorInvalid_of ?_)))
      unfold readHistory
      exact bind_err hk
    · intro a u h1 h2
      have hr : readErc20 C.H (.obj fields) = .error .keyError := by
        unfold readErc20
        exact bind_err hk
      unfold Client.erc20Get
      simp only [h1, hget, hr, bind, Except.bind, keyErrorInvalid]
      rw [if_neg (by rw [h2]; decide)]
  · intro hn n
    unfold Client.blockGet
    refine keyErrorInvalid_of ?_
    refine bind_of (hget _) ?_
    exact bind_err (idx_missing hn)
  · intro hn arg ep h
    have hr : BotRecord.ofJson C.L (.obj fields) = .error .keyError := by
      unfold BotRecord.ofJson
      exact bind_err (idx_missing hn)
    unfold Client.recordGet
    cases h <;> simp only [BotArg.endpoint, bind, Except.bind, hget, hr, keyErrorInvalid]
  · intro hn height
    unfold Client.mintConditionGet
    refine bind_of (hget _) (keyErrorInvalid_of ?_)
    exact bind_err (idx_missing hn)

/-- **C95**: whatever is missing in an answer, however deep, no lookup lets a `KeyError` out (unless asking the explorer itself raises it). -/
theorem C95_no_key_error (C : Client) (hget : ∀ ep, C.get ep ≠ .error .keyError) (v : BVal) (b : BlockArg) (arg : BotArg) (height : Option Int) :
    (∀ id, Hash.new v = .ok id → C.transactionGet v ≠ .error .keyError ∧ C.coinOutputGet v ≠ .error .keyError ∧
      C.stakeOutputGet v ≠ .error .keyError) ∧ C.blockGet b ≠ .error .keyError ∧ (∀ ep, LooksUp arg ep → C.recordGet arg ≠ .error .keyError) ∧
      C.mintConditionGet height ≠ .error .keyError ∧
      (∀ r c u, fromRecipient C.H r .none = .ok c → c.unlockhash C.H = .ok u → C.unlockhashGet r ≠ .error .keyError) ∧
      ∀ a u, SourceArg.resolve C.H a = .ok u → C.erc20Get a ≠ .error .keyError := by
  have hstep : ∀ {α : Type} (ep : Str) (f : Json → Res α), (∀ j, f j ≠ .error .keyError) → (C.get ep >>= f) ≠ .error .keyError := by
    intro α ep f hf
    cases hg : C.get ep with
    | error e => intro h; apply hget ep; rw [hg]; exact congrArg _ (Except.error.inj h)
    | ok j => exact hf j
  refine ⟨?_, keyErrorInvalid_ne _, ?_, ?_, ?_, ?_⟩
  · intro id hv
    refine ⟨?_, ?_, ?_⟩
    · unfold Client.transactionGet
      rw [bind_of hv rfl]
      exact hstep _ _ fun _ => keyErrorInvalid_ne _
    · unfold Client.coinOutputGet
      rw [bind_of hv rfl]
      exact hstep _ _ fun _ => keyErrorInvalid_ne _
    · unfold Client.stakeOutputGet
      rw [bind_of hv rfl]
      exact hstep _ _ fun _ => keyErrorInvalid_ne _
  · intro ep h
    unfold Client.recordGet
    cases h <;> simp only [BotArg.endpoint, bind, Except.bind] <;> split <;> first
      | exact keyErrorInvalid_ne _
      | (rename_i he; intro h; apply hget _ ; rw [he]; exact congrArg _ (Except.error.inj h))
      | simp
  · unfold Client.mintConditionGet
    exact hstep _ _ fun _ => keyErrorInvalid_ne _
  · intro r c u h1 h2
    unfold Client.unlockhashGet
    rw [bind_of h1 rfl, bind_of h2 rfl]
    exact hstep _ _ fun _ => keyErrorInvalid_ne _
  · intro a u h1
    unfold Client.erc20Get
    rw [bind_of h1 rfl]
    split
    · intro h; cases h
    · exact hstep _ _ fun _ => keyErrorInvalid_ne _

/-- The hypotheses are met by an explorer that answers every question with an empty object. -/
example : ∃ C : Client, (∀ ep, C.get ep = .ok (.obj [])) ∧ ∀ ep, C.get ep ≠ .error .keyError :=
  ⟨{ saying "blockid" [] with get := fun _ => .ok (.obj []) }, fun _ => rfl, fun _ => by simp⟩

/-- **C95**: a 3Bot nobody knows of is reported as such. -/
theorem C95_unknown_bot (C : Client) (arg : BotArg) (ep : Str) (h : LooksUp arg ep) (hn : C.get ep = .error .explorerNoContent) :
    C.recordGet arg = .error .threeBotNotFound := by
  unfold Client.recordGet
  cases h <;> simp only [BotArg.endpoint, bind, Except.bind, hn]

/-- **C95** (what does hold for 3Bots): the record in the answer about a 3Bot, given by id, name or key, is returned as it is. -/
theorem C95_record_contents (C : Client) (arg : BotArg) (ep : Str) (h : LooksUp arg ep) (r : BotRecord)
    (hL : LawfulIp C.L) (names : ∀ n ∈ r.names, MadeName n) (nets : ∀ a ∈ r.addresses, MadeNet C.L a) (key : FullKey r.key)
    (ha : C.get ep = .ok (.obj [("record", .obj [("id", .int r.id), ("names", .arr (r.names.map nameJson)),
      ("addresses", .arr (r.addresses.map (netJson C.L))), ("publickey", .str r.key.str), ("expiration", .int r.expiration)])])) :
    C.recordGet arg = .ok r := by
  have hget : ∀ resp, C.get ep = .ok resp → C.recordGet arg = keyErrorInvalid (BotRecord.ofJson C.L resp) := by
    intro resp hr
    unfold Client.recordGet
    cases h <;> simp only [BotArg.endpoint, bind, Except.bind, hr]
  rw [hget _ ha]
  have n1 := mapM_back BotName.fromJson nameJson id r.names fun n hn => name_back (names n hn)
  have n2 := mapM_back (NetAddr.fromJson C.L) (netJson C.L) id r.addresses fun a hm => net_back hL (nets a hm)
  rw [List.map_id] at n1 n2
  have hl : ∀ (l : List (String × Json)) (k : String) (js : List Json), jget l k = some (.arr js) → (Json.obj l).listField k = .ok js := by
    intro l k js hj
    unfold Json.listField
    simp only [Json.get?, hj, bind, Except.bind]
    cases js <;> rfl
  obtain ⟨R, hR⟩ : ∃ R : List (String × Json), R = [("id", .int r.id), ("names", .arr (r.names.map nameJson)),
      ("addresses", .arr (r.addresses.map (netJson C.L))), ("publickey", .str r.key.str), ("expiration", .int r.expiration)] := ⟨_, rfl⟩
  rw [← hR]
  have e1 : (Json.obj R).idx "id" = .ok (.int r.id) := by rw [hR]; rfl
  have e2 : (Json.obj R).listField "names" = .ok (r.names.map nameJson) := hl _ _ _ (by rw [hR]; rfl)
  have e3 : (Json.obj R).listField "addresses" = .ok (r.addresses.map (netJson C.L)) := hl _ _ _ (by rw [hR]; rfl)
  have e4 : (Json.obj R).idx "publickey" = .ok (.str r.key.str) := by rw [hR]; rfl
  have e5 : (Json.obj R).idx "expiration" = .ok (.int r.expiration) := by rw [hR]; rfl
  unfold BotRecord.ofJson
  simp only [show (Json.obj [("record", Json.obj R)]).idx "record" = .ok (.obj R) from rfl, e1, e2, e3, e4, e5, bind, Except.bind, Json.toInt, n1, n2,
    key_json key]
  rfl

/-- The record of `botEntry`. -/
def botThree : BotRecord := ⟨3, [⟨"thisis.another".toList⟩], [], key1, 1600000000⟩
/-- The hypotheses are met. -/
example : (∀ n ∈ botThree.names, MadeName n) ∧ (∀ a ∈ botThree.addresses, MadeNet toyIp a) ∧ FullKey botThree.key := by
  refine ⟨?_, by simp [botThree], rfl⟩
  intro n hn
  rw [List.mem_singleton.1 hn]
  exact .inr ⟨"thisis.another".toList, by decide +kernel⟩

/-! ## C62 -/

theorem mapM_readable {α β : Type} {f : α → Res β} {l : List α} (h : ∀ x ∈ l, ∃ y, f x = .ok y) : ∃ r, l.mapM f = .ok r := by
  induction l with
  | nil => exact ⟨[], rfl⟩
  | cons j l ih =>
    obtain ⟨x, hx⟩ := h j (by simp)
    obtain ⟨r, hr⟩ := ih fun y hy => h y (by simp [hy])
    exact ⟨x :: r, by rw [List.mapM_cons, hx, hr]; rfl⟩

/-- **C62**: an answer of the documented form about the address asked for is accepted; the history is that of the address, with as many transactions as
entries, the shared addresses as listed and the ERC20 registration. -/
theorem C62_accepted (C : Client) (hH : Digest32 C.H) (u : UnlockHash) (hu : CanonicalAddress u) (fields : List (String × Json)) (entries : List Json)
    (shared : List UnlockHash) (reg : Option Erc20Info) (hget : C.get ("/explorer/hashes/".toList ++ u.str C.H) = .ok (.obj fields))
    (ha : AnswerAbout C.L C.H fields entries shared reg) :
    ∃ h, C.unlockhashGet (.str (u.str C.H)) = .ok h ∧ h.address = u ∧ h.txs.length = entries.length ∧ h.multisigs = shared ∧ h.erc20 = reg := by
  have hr := (C22_address_roundtrip C.H hH u hu).2
  have h1 : fromRecipient C.H (.str (u.str C.H)) .none = .ok (.unlockHash u) := by
    unfold fromRecipient
    show ((UnlockHash.fromJson C.H (.str (u.str C.H)) >>= fun x => pure (Condition.unlockHash x)) >>= _) = _
    rw [hr]
    rfl
  obtain ⟨txs, ht⟩ := mapM_readable ha.readable
  have hms : (Json.obj fields).listField "multisigaddresses" = .ok (shared.map fun v => .str (v.str C.H)) := by
    unfold Json.listField
    rcases ha.mentioned with h | ⟨rfl, h⟩
    · simp only [Json.get?, h, bind, Except.bind]
      cases shared <;> rfl
    · simp only [Json.get?, h, bind, Except.bind]
      rfl
  have hback := mapM_back (UnlockHash.fromJson C.H) (fun v : UnlockHash => Json.str (v.str C.H)) id shared fun v hv =>
    (C22_address_roundtrip C.H hH v (ha.owned v hv).1).2
  rw [List.map_id] at hback
  have hall : expect (shared.all fun v => v.type = 3) = .ok () := by
    unfold expect
    rw [if_pos]
    rw [List.all_eq_true]
    intro v hv
    exact decide_eq_true (ha.owned v hv).2
  have hreg : optField (.obj fields) "erc20info" (Erc20Info.ofJson C.H) = .ok reg := by
    rcases ha.registered with ⟨h, rfl⟩ | ⟨j, i, h, hi, rfl⟩
    · exact optField_none _ h
    · rw [optField_some _ h, hi]; rfl
  have htype : expect ((Json.str "unlockhash".toList).isStr "unlockhash".toList) = .ok () := by decide
  refine ⟨⟨u, sortTxs txs, shared, reg⟩, ?_, rfl, ?_, rfl, rfl⟩
  · have hread : readHistory C.L C.H (u.str C.H) (.obj fields) = .ok ⟨u, sortTxs txs, shared, reg⟩ := by
      unfold readHistory
      refine bind_of (idx_obj ha.type) (bind_of htype (bind_of (idx_obj ha.listed) (bind_of (a := entries) rfl (bind_of ht (bind_of hms (bind_of hback
        (bind_of hall (bind_of hreg (bind_of hr rfl)))))))))
    unfold Client.unlockhashGet
    rw [h1]
    show (C.get ("/explorer/hashes/".toList ++ u.str C.H) >>= fun resp => keyErrorInvalid (readHistory C.L C.H (u.str C.H) resp)) = _
    rw [hget]
    show keyErrorInvalid (readHistory C.L C.H (u.str C.H) (.obj fields)) = _
    rw [hread]
    rfl
  · rw [(sortTxs_perm txs).length_eq, (mapM_get'' ht).1]

/-- The hypotheses are met by the answer about an address with a shared one. -/
example : AnswerAbout noIp toyHash [("hashtype", .str "unlockhash".toList), ("transactions", .arr [entrySpends 7 false]),
    ("multisigaddresses", .arr ([msAddr].map fun u => .str (u.str toyHash)))] [entrySpends 7 false] [msAddr] none := by
  refine ⟨by simp [jget_cons], by simp [jget_cons], ?_, .inl (by simp [jget_cons]), ?_, .inl ⟨by simp [jget_cons, jget], rfl⟩⟩
  · intro e he
    rw [List.mem_singleton.1 he]
    obtain ⟨ct, h, _⟩ := (C94_accepted (entry_demo 7 false)).2 7 ⟨_, rfl, .inr rfl, rfl⟩ (by decide)
    exact ⟨ct, h⟩
  · intro u hu
    rw [List.mem_singleton.1 hu]
    exact ⟨.inl ⟨by decide +kernel, by decide +kernel⟩, by decide +kernel⟩

/-! ## C63: the balance of an address is available -/

theorem foldlM_ok {α β : Type} {f : β → α → Res β} (P : β → Prop) (l : List α) (h : ∀ b, P b → ∀ x ∈ l, ∃ b', f b x = .ok b' ∧ P b') :
    ∀ b, P b → ∃ b', l.foldlM f b = .ok b' ∧ P b' := by
  induction l with
  | nil => intro b hb; exact ⟨b, rfl, hb⟩
  | cons x l ih =>
    intro b hb
    obtain ⟨b1, h1, hb1⟩ := h b hb x (by simp)
    obtain ⟨b2, h2, hb2⟩ := ih (fun b hb y hy => h b hb y (by simp [hy])) b1 hb1
    exact ⟨b2, by rw [List.foldlM_cons, h1]; exact h2, hb2⟩

theorem addOrRaise_total {H : Bytes → Bytes} {o : CoinOutput} {u : UnlockHash} (h : o.condition.unlockhash H = .ok u) (b : Balance) (c s : Bool) :
    ∃ b', b.addOrRaise H o c s = .ok b' := by
  unfold Balance.addOrRaise Balance.outputAdd
  rw [h]
  exact ⟨_, rfl⟩

theorem addIfOf_total {H : Bytes → Bytes} {o : CoinOutput} {u : UnlockHash} (h : o.condition.unlockhash H = .ok u) (a : Str) (b : Balance) (c s : Bool) :
    ∃ b', Balance.addIfOf H a c s b o = .ok b' := by
  unfold Balance.addIfOf
  rw [h]
  show ∃ b', (if u.str H = a then _ else _) = _
  split
  · exact addOrRaise_total h b c s
  · exact ⟨b, rfl⟩

theorem addTx_total {H : Bytes → Bytes} {t : ChainTx} {ins : List CoinInput} (hi : t.tx.coinInputs = some ins)
    (ho : ∀ o, Touches t.tx o → ∃ u, o.condition.unlockhash H = .ok u) (a : Str) (b : Balance) : ∃ b', Balance.addTx H a b t = .ok b' := by
  have hin : t.tx.inputsList = .ok ins := by unfold Tx.inputsList; rw [hi]
  unfold Balance.addTx
  rw [hin]
  obtain ⟨b1, h1, -⟩ := foldlM_ok (f := Balance.addIfOf H a (!t.unconfirmed) true) (fun _ => True) (ins.map CoinInput.parentOutput) (by
    intro b _ o hm
    obtain ⟨ci, hc, rfl⟩ := List.mem_map.1 hm
    obtain ⟨u, hu⟩ := ho _ (.inl ⟨ins, hi, ci, hc, rfl⟩)
    obtain ⟨b', hb'⟩ := addIfOf_total hu a b (!t.unconfirmed) true
    exact ⟨b', hb', trivial⟩) b trivial
  obtain ⟨b2, h2, -⟩ := foldlM_ok (f := Balance.addIfOf H a (!t.unconfirmed) false) (fun _ => True) t.tx.coinOutputs (by
    intro b _ o hm
    obtain ⟨u, hu⟩ := ho o (.inr hm)
    obtain ⟨b', hb'⟩ := addIfOf_total hu a b (!t.unconfirmed) false
    exact ⟨b', hb', trivial⟩) b1 trivial
  refine ⟨b2, ?_⟩
  simp only [bind, Except.bind, h1]
  exact h2

/-- **C63**: the balance of an address that is no multi-signature address is available, if every output in its history has an address. -/
theorem C63_available (H : Bytes → Bytes) (h : History) (ht : h.address.type ≠ 3) (ha : Addressed H h) (info : ChainInfo) :
    ∃ b, h.balance H info = .ok (.wallet b) := by
  obtain ⟨b, hb, -⟩ := foldlM_ok (f := Balance.addTx H (h.address.str H)) (fun _ => True) h.txs (by
    intro b _ t hm
    obtain ⟨⟨ins, hi⟩, ho⟩ := ha t hm
    obtain ⟨b', hb'⟩ := addTx_total hi ho (h.address.str H) b
    exact ⟨b', hb', trivial⟩) {} trivial
  refine ⟨b.withChain info, ?_⟩
  unfold History.balance personalBalance
  rw [if_neg ht, hb]
  rfl

/-- A multi-signature balance of the owners of the address. -/
def MultiAt (H : Bytes → Bytes) (a : Str) : Option MultiBalance → Prop
  | none => True
  | some m => m.address H = .ok a

theorem multiAddIfOf_total {H : Bytes → Bytes} {o : CoinOutput} {u : UnlockHash} (h : o.condition.unlockhash H = .ok u) (a : Str)
    (hn : u.str H = a → NamesOwners o.condition) (b : Option MultiBalance) (hb : MultiAt H a b) (c s : Bool) :
    ∃ b', multiAddIfOf H a c s b o = .ok b' ∧ MultiAt H a b' := by
  unfold multiAddIfOf
  rw [h]
  show ∃ b', (if u.str H = a then _ else _) = _ ∧ _
  split
  · rename_i hs
    obtain ⟨owners, n, h1, h2, hc⟩ := hn hs
    have hw : o.condition.unwrap = .multiSig owners n := by
      rcases hc with hc | ⟨l, hc⟩ <;> rw [hc] <;> rfl
    have hu : (Condition.multiSig owners n).unlockhash H = .ok u := by
      rcases hc with hc | ⟨l, hc⟩
      · rw [hc] at h; exact h
      · rw [hc] at h; exact h
    rw [hw]
    simp only
    have key : ∀ m : MultiBalance, m.address H = .ok a → ∃ b', (do
        let x ← m.base.addOrRaise H o c s
        pure (some { m with base := x }) : Res (Option MultiBalance)) = .ok b' ∧ MultiAt H a b' := by
      intro m hm
      obtain ⟨x, hx⟩ := addOrRaise_total h m.base c s
      rw [hx]
      exact ⟨_, rfl, hm⟩
    cases b with
    | some m => exact key m hb
    | none =>
      have : MultiBalance.new owners n = .ok ⟨owners, n, {}⟩ := by
        unfold MultiBalance.new
        rw [if_neg (by omega), if_neg (by omega)]
      simp only [this]
      refine key ⟨owners, n, {}⟩ ?_
      unfold MultiBalance.address
      rw [hu, ← hs]
      rfl
  · exact ⟨b, rfl, hb⟩

theorem multiAddTx_total {H : Bytes → Bytes} {a : Str} {t : ChainTx} {ins : List CoinInput} (hi : t.tx.coinInputs = some ins)
    (ho : ∀ o, Touches t.tx o → ∃ u, o.condition.unlockhash H = .ok u) (hd : ¬ IsMintDefinition t.tx)
    (hn : ∀ o, Touches t.tx o → AtAddress H a o → NamesOwners o.condition) (b : Option MultiBalance) (hb : MultiAt H a b) :
    ∃ b', multiAddTx H a b t = .ok b' ∧ MultiAt H a b' := by
  have hin : t.tx.inputsList = .ok ins := by unfold Tx.inputsList; rw [hi]
  have step : ∀ o, Touches t.tx o → ∀ (b : Option MultiBalance), MultiAt H a b → ∀ s, ∃ b', multiAddIfOf H a (!t.unconfirmed) s b o = .ok b' ∧ MultiAt H a b' := by
    intro o hto b hb s
    obtain ⟨u, hu⟩ := ho o hto
    exact multiAddIfOf_total hu a (fun h => hn o hto ⟨u, hu, h⟩) b hb _ s
  unfold multiAddTx
  rw [hin]
  obtain ⟨b1, h1, hb1⟩ := foldlM_ok (f := multiAddIfOf H a (!t.unconfirmed) true) (MultiAt H a) (ins.map CoinInput.parentOutput) (by
    intro b hb o hm
    obtain ⟨ci, hc, rfl⟩ := List.mem_map.1 hm
    exact step _ (.inl ⟨ins, hi, ci, hc, rfl⟩) b hb true) b hb
  obtain ⟨b2, h2, hb2⟩ := foldlM_ok (f := multiAddIfOf H a (!t.unconfirmed) false) (MultiAt H a) t.tx.coinOutputs (by
    intro b hb o hm
    exact step o (.inr hm) b hb false) b1 hb1
  refine ⟨b2, ?_, hb2⟩
  simp only [bind, Except.bind, h1, h2]
  unfold multiMint
  split
  · rename_i v hv; rw [hv] at hd; exact absurd trivial hd
  · rfl

/-- **C63**: the balance of a multi-signature address is available, if the outputs at it name its owners (partial: and if no transaction sets the
mint condition, see `C63_mint_false` and `C63_plain_output_false`). Unless nothing was ever received, it is a balance of the owners of that address. -/
theorem C63_available_multi_partial (H : Bytes → Bytes) (h : History) (ht : h.address.type = 3) (ha : Addressed H h) (ho : OwnersKnown H h) (info : ChainInfo) :
    h.balance H info = .ok (.wallet { time := info.time, height := info.height, blockid := info.blockid }) ∨
      ∃ m, h.balance H info = .ok (.multi m) ∧ m.address H = .ok (h.address.str H) := by
  obtain ⟨b, hb, hm⟩ := foldlM_ok (f := multiAddTx H (h.address.str H)) (MultiAt H (h.address.str H)) h.txs (by
    intro b hb t hm
    obtain ⟨⟨ins, hi⟩, hu⟩ := ha t hm
    exact multiAddTx_total hi hu (ho t hm).1 (ho t hm).2 b hb) none trivial
  unfold History.balance
  rw [if_pos ht, hb]
  cases b with
  | none => exact .inl rfl
  | some m => exact .inr ⟨{ m with base := m.base.withChain info }, rfl, hm⟩

/-! ## C96: the balance of a wallet is available -/

theorem history_address {C : Client} (hH : Digest32 C.H) {u : UnlockHash} (hu : CanonicalAddress u) {h : History}
    (hh : C.unlockhashGet (.str (u.str C.H)) = .ok h) : h.address = u := by
  obtain ⟨c, v, resp, h1, h2, _, h4⟩ := unlockhashGet_ok hh
  obtain ⟨_, _, _, _, _, hn, _⟩ := readHistory_ok h4
  have hr := (C22_address_roundtrip C.H hH u hu).2
  obtain ⟨c1, hc, h1⟩ := bind_ok h1
  cases h1
  obtain ⟨w, hw, hc⟩ := bind_ok (show (UnlockHash.fromStr C.H (u.str C.H) >>= fun x => pure (Condition.unlockHash x)) = .ok c from hc)
  cases hc
  cases h2
  have hw : UnlockHash.fromJson C.H (.str (u.str C.H)) = .ok v := hw
  rw [hr] at hw
  cases hw
  have hn : UnlockHash.fromJson C.H (.str (u.str C.H)) = .ok h.address := hn
  rw [hr] at hn
  exact (Except.ok.inj hn).symm

/-- The balance knows nothing of the chain, or what `info` tells. -/
def ChainKnown (info : ChainInfo) (b : Balance) : Prop := b.height = 0 ∧ b.time = 0 ∨ b.height = info.height ∧ b.time = info.time

theorem merge_total {info : ChainInfo} (hi : 0 < info.height ∧ 0 < info.time) {b o : Balance} (hb : ChainKnown info b)
    (ho : o.height = info.height ∧ o.time = info.time) : ∃ m, b.merge o = .ok m ∧ ChainKnown info m := by
  have : ∃ c, b.mergeChain o = .ok c ∧ ChainKnown info c := by
    unfold Balance.mergeChain
    rcases hb with ⟨h1, h2⟩ | ⟨h1, h2⟩
    · rw [if_neg (by omega), if_neg (by omega)]
      exact ⟨_, rfl, .inr ⟨ho.1, ho.2⟩⟩
    · rw [if_pos (by omega), if_neg (by omega)]
      exact ⟨b, rfl, .inr ⟨h1, h2⟩⟩
  obtain ⟨c, hc, hk⟩ := this
  unfold Balance.merge
  rw [hc]
  exact ⟨_, rfl, hk⟩

theorem balance_chain {H : Bytes → Bytes} {h : History} {info : ChainInfo} {b : Balance} (hb : h.balance H info = .ok (.wallet b)) :
    b.height = info.height ∧ b.time = info.time := by
  unfold History.balance at hb
  split at hb
  · obtain ⟨m, _, hb⟩ := bind_ok hb
    cases m <;> cases hb
    exact ⟨rfl, rfl⟩
  · obtain ⟨m, _, hb⟩ := bind_ok hb
    cases hb
    exact ⟨rfl, rfl⟩

theorem addPersonal_total {C : Client} {info : ChainInfo} (hi : 0 < info.height ∧ 0 < info.time) (own : List UnlockHash) (h1 : ∀ u ∈ own, u.type = 1)
    (ha : ∀ u ∈ own, Answers C u (Addressed C.H)) : ∀ w : Wallets, ChainKnown info w.base →
      ∃ w', C.addPersonal info (own.map fun u => u.str C.H) (.wallets w) = .ok (.wallets w', (mentioned C own).map fun u => u.str C.H) ∧
        ChainKnown info w'.base ∧ w'.wallets = w.wallets := by
  induction own with
  | nil => intro w hw; exact ⟨w, rfl, hw, rfl⟩
  | cons u own ih =>
    intro w hw
    have ih := ih (fun x hx => h1 x (List.mem_cons_of_mem _ hx)) (fun x hx => ha x (List.mem_cons_of_mem _ hx))
    rw [List.map_cons, Client.addPersonal, mentioned]
    rcases ha u List.mem_cons_self with hn | ⟨h, hh, had⟩
    · rw [hn]
      exact ih w hw
    · rw [hh]
      have ht : h.address.type ≠ 3 := by rw [history_type (.inl (h1 u List.mem_cons_self)) hh, h1 u List.mem_cons_self]; decide
      obtain ⟨b, hb⟩ := C63_available C.H h ht had info
      obtain ⟨m, hm, hk⟩ := merge_total hi hw (balance_chain hb)
      obtain ⟨w', e1, e2, e3⟩ := ih { w with base := m } hk
      refine ⟨w', ?_, e2, e3⟩
      simp only [hb, AnyBalance.add, Wallets.add, hm, bind, Except.bind, pure, Except.pure, e1, List.map_append]

theorem addMulti_total {C : Client} (hH : Digest32 C.H) {info : ChainInfo} (hi : 0 < info.height ∧ 0 < info.time) (shared : List UnlockHash)
    (h3 : ∀ u ∈ shared, u.type = 3 ∧ CanonicalAddress u)
    (ha : ∀ u ∈ shared, Answers C u fun h => Addressed C.H h ∧ OwnersKnown C.H h) (hnd : (shared.map fun u => u.str C.H).Nodup) :
    ∀ w : Wallets, ChainKnown info w.base → (∀ u ∈ shared, w.wallets.get? (u.str C.H) = none) →
      ∃ w', C.addMulti info (shared.map fun u => u.str C.H) (.wallets w) = .ok (.wallets w') := by
  induction shared with
  | nil => intro w _ _; exact ⟨w, rfl⟩
  | cons u shared ih =>
    intro w hw hg
    rw [List.map_cons, List.nodup_cons] at hnd
    have ih := ih (fun x hx => h3 x (List.mem_cons_of_mem _ hx)) (fun x hx => ha x (List.mem_cons_of_mem _ hx)) hnd.2
    rw [List.map_cons, Client.addMulti]
    rcases ha u List.mem_cons_self with hn | ⟨h, hh, had, hok⟩
    · rw [hn]
      exact ih w hw fun x hx => hg x (List.mem_cons_of_mem _ hx)
    · rw [hh]
      obtain ⟨hu3, huc⟩ := h3 u List.mem_cons_self
      have hadr := history_address hH huc hh
      have ht : h.address.type = 3 := by rw [hadr, hu3]
      rcases C63_available_multi_partial C.H h ht had hok info with hb | ⟨m, hb, hma⟩
      · obtain ⟨m, hm, hk⟩ := merge_total (o := { time := info.time, height := info.height, blockid := info.blockid }) hi hw ⟨rfl, rfl⟩
        obtain ⟨w', e1⟩ := ih { w with base := m } hk fun x hx => hg x (List.mem_cons_of_mem _ hx)
        refine ⟨w', ?_⟩
        simp only [hb, AnyBalance.add, Wallets.add, hm, bind, Except.bind, pure, Except.pure, e1]
      · rw [hadr] at hma
        have hnone := hg u List.mem_cons_self
        obtain ⟨w', e1⟩ := ih { w with wallets := w.wallets.put (u.str C.H) m } hw (by
          intro x hx
          have hne : x.str C.H ≠ u.str C.H := fun e => hnd.1 (List.mem_map.2 ⟨x, hx, e⟩)
          rw [put_new hnone]
          have := hg x (List.mem_cons_of_mem _ hx)
          unfold MultiMap.get? at this ⊢
          rw [Option.map_eq_none_iff] at this ⊢
          rw [List.find?_append, this]
          simp [Ne.symm hne])
        refine ⟨w', ?_⟩
        simp only [hb, AnyBalance.add, Wallets.add, hma, Wallets.mergeMulti, hnone, bind, Except.bind, pure, Except.pure, e1]

/-- **C96**: the balance of a wallet is available, whatever the explorers tell about its addresses (partial: if the histories of shared addresses name
their owners and set no mint condition, if no shared address is mentioned twice, see `C96_two_owners_false`, and if the chain is past its first block, see
`C96_first_block_false`). -/
theorem C96_available_partial (C : Client) (hH : Digest32 C.H) (own : List UnlockHash) (h1 : ∀ u ∈ own, u.type = 1) (info : ChainInfo)
    (hi : 0 < info.height ∧ 0 < info.time) (ha : ∀ u ∈ own, Answers C u (Addressed C.H))
    (hs : ∀ u ∈ mentioned C own, CanonicalAddress u ∧ Answers C u fun h => Addressed C.H h ∧ OwnersKnown C.H h)
    (hnd : ((mentioned C own).map fun u => u.str C.H).Nodup) :
    ∃ b, C.walletBalance (.ok info) (own.map fun u => u.str C.H) = .ok b := by
  obtain ⟨w1, e1, e2, e3⟩ := addPersonal_total hi own h1 ha {} (.inl ⟨rfl, rfl⟩)
  have h3 : ∀ u ∈ mentioned C own, u.type = 3 := by
    clear ha hs hnd e1 h1
    induction own with
    | nil => intro u hu; cases hu
    | cons x own ih =>
      intro u hu
      rw [mentioned] at hu
      rcases List.mem_append.1 hu with hu | hu
      · cases hx : C.unlockhashGet (.str (x.str C.H)) with
        | error e => rw [hx] at hu; cases hu
        | ok h =>
          rw [hx] at hu
          obtain ⟨_, _, _, _, _, _, h4⟩ := unlockhashGet_ok hx
          obtain ⟨_, _, _, _, _, _, h9, _⟩ := readHistory_ok h4
          exact h9 u hu
      · exact ih u hu
  obtain ⟨w2, f1⟩ := addMulti_total hH hi (mentioned C own) (fun u hu => ⟨h3 u hu, (hs u hu).1⟩) (fun u hu => (hs u hu).2) hnd w1 e2 (by
    intro u _; rw [e3]; rfl)
  refine ⟨(AnyBalance.wallets w2).withChain info, ?_⟩
  unfold Client.walletBalance
  simp only [bind, Except.bind, e1, f1]
  rfl

/-- **C96** is false as long as the chain consists of its first block only: the balance of a wallet with a history cannot be computed. -/
theorem C96_first_block_false (C : Client) (u : UnlockHash) (hu : u.type = 1) (own : List UnlockHash) (h : History)
    (hh : C.unlockhashGet (.str (u.str C.H)) = .ok h) (ha : Addressed C.H h) (info : ChainInfo) (h0 : info.height = 0) (ht : 0 < info.time) :
    C.walletBalance (.ok info) ((u :: own).map fun u => u.str C.H) = .error .valueError := by
  have ht3 : h.address.type ≠ 3 := by rw [history_type (.inl hu) hh, hu]; decide
  obtain ⟨b, hb⟩ := C63_available C.H h ht3 ha info
  obtain ⟨b1, b2⟩ := balance_chain hb
  have hm : ({} : Balance).merge b = .error .valueError := by
    unfold Balance.merge Balance.mergeChain
    rw [if_pos (show (0 : Int) ≥ b.height by omega), if_pos (show (0 : Int) < b.time by omega)]
    rfl
  unfold Client.walletBalance
  rw [List.map_cons]
  simp only [bind, Except.bind, Client.addPersonal, hh, hb, AnyBalance.add, Wallets.add, hm]

/-! ### Examples -/

/-- The outputs of `Touches`. -/
def touchedList (t : Tx) : List CoinOutput := (t.coinInputs.getD []).map CoinInput.parentOutput ++ t.coinOutputs

theorem mem_touchedList {t : Tx} {o : CoinOutput} : Touches t o → o ∈ touchedList t := by
  rintro (⟨ins, hi, ci, hc, rfl⟩ | h)
  · refine List.mem_append_left _ (List.mem_map_of_mem ?_)
    rw [hi]; exact hc
  · exact List.mem_append_right _ h

/-- A check of `Addressed`, and of `OwnersKnown` with conditions that are not locked. -/
def addressedCheck (H : Bytes → Bytes) (h : History) : Bool :=
  h.txs.all fun t => t.tx.coinInputs.isSome && (touchedList t.tx).all fun o => (o.condition.unlockhash H).isOk
@[inherit_doc addressedCheck]
def ownersCheck (H : Bytes → Bytes) (h : History) : Bool :=
  h.txs.all fun t => (match t.tx with | .v1 _ => true | _ => false) && (touchedList t.tx).all fun o =>
    match o.condition with
    | .multiSig owners n => decide (1 ≤ n ∧ n ≤ (owners.length : Int))
    | _ => false

theorem addressed_check {H : Bytes → Bytes} {h : History} (hc : addressedCheck H h = true) : Addressed H h := by
  intro t ht
  have := List.all_eq_true.1 hc t ht
  rw [Bool.and_eq_true] at this
  refine ⟨Option.isSome_iff_exists.1 this.1, ?_⟩
  intro o ho
  have := List.all_eq_true.1 this.2 o (mem_touchedList ho)
  cases hu : o.condition.unlockhash H with
  | ok u => exact ⟨u, rfl⟩
  | error e => rw [hu] at this; cases this

theorem owners_check {H : Bytes → Bytes} {h : History} (hc : ownersCheck H h = true) : OwnersKnown H h := by
  intro t ht
  have := List.all_eq_true.1 hc t ht
  rw [Bool.and_eq_true] at this
  refine ⟨?_, ?_⟩
  · intro hm
    cases hv : t.tx with
    | v1 _ => rw [hv] at hm; cases hm
    | v128 _ => rw [hv] at this; cases this.1
    | _ => rw [hv] at hm; cases hm
  · intro o ho _
    have := List.all_eq_true.1 this.2 o (mem_touchedList ho)
    split at this
    · rename_i owners n hcnd
      obtain ⟨h1, h2⟩ := of_decide_eq_true this
      exact ⟨owners, n, h1, h2, .inl hcnd⟩
    · cases this

theorem answers_check {C : Client} {u : UnlockHash} {f : History → Bool} {P : History → Prop} (hf : ∀ h, f h = true → P h)
    (h : (C.unlockhashGet (.str (u.str C.H))).map f = .ok true) : Answers C u P := by
  cases hh : C.unlockhashGet (.str (u.str C.H)) with
  | error e => rw [hh] at h; cases h
  | ok g =>
    rw [hh] at h
    exact .inr ⟨g, hh, hf g (Except.ok.inj h)⟩

/-- The hypotheses of `C96_available_partial` are met by a wallet with an address that shares coins and one that is not used. -/
example : (∀ u ∈ [addrOf key1, addrOf key2], u.type = 1) ∧ (0 < infoDemo.height ∧ 0 < infoDemo.time) ∧
    (∀ u ∈ [addrOf key1, addrOf key2], Answers oneOwner u (Addressed toyHash)) ∧ mentioned oneOwner [addrOf key1, addrOf key2] = [msAddr] ∧
    CanonicalAddress msAddr ∧ Answers oneOwner msAddr fun h => Addressed toyHash h ∧ OwnersKnown toyHash h := by
  refine ⟨by decide +kernel, by decide, ?_, by decide +kernel, .inl ⟨by decide +kernel, by decide +kernel⟩, ?_⟩
  · intro u hu
    simp only [List.mem_cons, List.not_mem_nil, or_false] at hu
    rcases hu with rfl | rfl
    · exact answers_check (f := addressedCheck toyHash) (fun _ => addressed_check) (by decide +kernel)
    · exact .inl (by decide +kernel)
  · refine answers_check (f := fun h => addressedCheck toyHash h && ownersCheck toyHash h) ?_ (by decide +kernel)
    intro h hc
    rw [Bool.and_eq_true] at hc
    exact ⟨addressed_check hc.1, owners_check hc.2⟩

/-- In the first block. -/
example : oneOwner.walletBalance (.ok ⟨0, 1500000000, ⟨List.replicate 32 9⟩⟩) ([addrOf key1].map fun u => u.str toyHash) = .error .valueError := by decide +kernel

end TF.Props
