import Verif.Spec.Ops
import Verif.Props.WalletOps
import Verif.Props.TxBuild
/-!
# Properties C79, C80: 3Bot operations and ERC20 registrations
-/
namespace TF.Props
open TF Spec

theorem addAllLimited_mapM {α β : Type} {max : Nat} {mk : α → Res β} {xs : List α} : ∀ {l r : List β}, addAllLimited max mk l xs = (r, none) →
    ∃ ys, xs.mapM mk = .ok ys ∧ r = l ++ ys := by
  induction xs with
  | nil => intro l r h; cases h; exact ⟨[], rfl, by simp⟩
  | cons x xs ih =>
    intro l r h
    unfold addAllLimited addLimited at h
    split at h
    · rename_i l' hl
      split at hl
      · cases hl
      · split at hl
        · rename_i y hy
          cases hl
          obtain ⟨ys, h1, h2⟩ := ih h
          refine ⟨y :: ys, ?_, by rw [h2]; simp⟩
          rw [List.mapM_cons, hy, h1]; rfl
        · cases hl
    · cases h

theorem assignList_items {α β : Type} {max : Nat} {mk : α → Res β} {v : Option (List α)} {l : List β} (h : assignList max mk v = .ok l) :
    Items max mk v l := by
  unfold assignList at h
  split at h
  · rename_i r hr
    cases h
    obtain ⟨ys, h1, h2⟩ := addAllLimited_mapM hr
    simp only [List.nil_append] at h2
    subst h2
    refine ⟨h1, ?_⟩
    have := addAllLimited_le max mk (v.getD []) [] (Nat.zero_le _)
    rw [hr] at this; exact this
  · cases h

theorem isFunded_of {W : World} {w : Wallets} {extra : Currency} {src : Source} {refund : Recipient} {x : List CoinInput × Option CoinOutput × Currency} {t : Tx}
    (hs : SaneOutputs (walletsSpendable w)) (hfee : GoodCurrency W.fee) (hx : GoodCurrency extra) (h : W.fundExtra w extra src refund = .ok x)
    (h1 : t.minerFees = [x.2.2]) (h2 : t.coinOutputs = x.2.1.toList) (h3 : t.coinInputs = some x.1) : IsFunded W w (amount extra) src refund t := by
  obtain ⟨ins, rf, fee⟩ := x
  obtain ⟨e1, e2, e3, e4, e6⟩ := fundExtra_spec hs hfee hx h
  refine ⟨by simp [h1, e1], ?_, ins, h3, e3, e4, by rw [h2]; exact e6⟩
  rcases e2 with e | ⟨co, e, h⟩
  · exact .inl (by simp [h2, e])
  · exact .inr ⟨co, by simp [h2, e], h⟩

theorem addPair_new {H : Bytes → Bytes} {s s' : Keys} {k : PublicKey} (h : s.addPair H k = .ok s') : ∀ p ∈ s.pairs, ¬ HasAddress H k p.1 := by
  intro p hp hk
  obtain ⟨u, h1, h2⟩ := hk
  unfold Keys.addPair addressOf at h
  simp only [h1, bind, Except.bind, pure, Except.pure] at h
  rw [if_pos] at h
  · cases h
  · rw [List.any_eq_true]
    exact ⟨p, hp, by simp [h2]⟩

theorem new1_new {H derive : Bytes → Bytes} {s : Keys} {x : Keys × PublicKey} (h : s.new1 H derive = .ok x) : ∀ p ∈ s.pairs, ¬ HasAddress H x.2 p.1 := by
  unfold Keys.new1 at h
  split at h
  · simp only [bind, Except.bind] at h
    split at h
    · cases h
    · rename_i s' hs'
      cases h
      exact fun p hp => addPair_new (s := { s with unused := _ }) hs' p hp
  · simp only [bind, Except.bind] at h
    split at h
    · cases h
    · split at h
      · cases h
      · rename_i s' hs'
        cases h
        exact addPair_new hs'

theorem keyForIndex_spec {W : World} {i : Option Int} {x : Keys × PublicKey} (h : W.keyForIndex i = .ok x) : KeyAtIndex W i x.2 := by
  cases i with
  | none => exact new1_new h
  | some i =>
    simp only [World.keyForIndex, bind, Except.bind] at h
    split at h
    · cases h
    · rename_i addrs ha
      split at h
      · cases h
      · rename_i hi
        split at h
        · cases h
        · rename_i a hga
          split at h
          · cases h
          · rename_i k hk
            cases h
            exact ⟨addrs, a, ha, by omega, hga, hk⟩

theorem keyFor_spec {W : World} {which : WhichKey} {x : Keys × PublicKey} (h : W.keyFor which = .ok x) : KeyNamed W which x.2 := by
  cases which with
  | new => exact keyForIndex_spec (i := none) h
  | index i => exact keyForIndex_spec (i := some i) h
  | other => cases h
  | str s =>
    simp only [World.keyFor, bind, Except.bind] at h
    split at h
    · rename_i k hk; cases h; exact hk
    · split at h <;> cases h
  | uh u =>
    simp only [World.keyFor] at h
    split at h
    · rename_i k hk; cases h; exact hk
    · cases h

theorem registration_spec {L : IpLib} {months : Int} {names : Option (List NameArg)} {addresses : Option (List NetArg)} {t : TxV144}
    (h : registration L months names addresses = .ok t) : t.months = months ∧ 1 ≤ months ∧ months ≤ 24 ∧ Items 5 BotName.new names t.names ∧
      Items 10 (NetAddr.new L) addresses t.addresses := by
  unfold registration at h
  simp only [bind, Except.bind] at h
  split at h
  · cases h
  · rename_i t0 ht0
    have h0 : t0.months = months ∧ 1 ≤ months ∧ months ≤ 24 := by
      unfold TxV144.setMonths at ht0
      split at ht0
      · cases ht0
      · cases ht0; exact ⟨rfl, by omega, by omega⟩
    split at h
    · cases h
    · split at h
      · cases h
      · rename_i ns hns
        split at h
        · cases h
        · rename_i as has
          cases h
          exact ⟨h0.1, h0.2.1, h0.2.2, assignList_items hns, assignList_items has⟩

/-- **C79** (what holds: `threebot.record_new`). Let the wallet hold legal amounts adding up to less than 10^28 smallest units. Whatever the
operation posts or returns is a registration for exactly the given number of months (1 to 24), with exactly the given names (at most 5) and
addresses (at most 10), for the key asked for; and it spends exactly 90 TFT, the price of the months and 50 TFT per name beyond the first,
besides the miner fee and what returns to the refund address. -/
theorem C79_record_new_partial (W : World) (w : Wallets) (L : IpLib) (months : Int) (names : Option (List NameArg)) (addresses : Option (List NetArg))
    (keyIndex : Option Int) (src : Source) (refund : Recipient) (t : Tx) (hw : W.balance = .ok w) (hs : SaneOutputs (walletsSpendable w))
    (hfee : GoodCurrency W.fee) (ht : Produces (W.recordNew L months names addresses keyIndex src refund) t) :
    ∃ (v : TxV144) (k : PublicKey), t = .v144 v ∧ v.months = months ∧ 1 ≤ months ∧ months ≤ 24 ∧ Items 5 BotName.new names v.names ∧
      Items 10 (NetAddr.new L) addresses v.addresses ∧ v.key = some k ∧ KeyAtIndex W keyIndex k ∧
      IsFunded W w (90 * 10^9 + monthlyPrice months.toNat + 50 * 10^9 * (v.names.length - 1)) src refund t := by
  obtain ⟨r, hr, ht⟩ := ofRes_produces ht
  obtain ⟨fees, hfees, ht⟩ := ofRes_produces ht
  obtain ⟨w', hw', ht⟩ := ofRes_produces ht
  rw [hw] at hw'; cases hw'
  obtain ⟨x, hx, ht⟩ := ofRes_produces ht
  obtain ⟨k, hk, ht⟩ := ofRes_produces ht
  have hb := signSubmit_produces ht
  obtain ⟨r1, r2, r3, r4, r5⟩ := registration_spec hr
  obtain ⟨c, hc, gc, ac⟩ := (C44_registration_fee r).1 (by omega) (by omega) (by have := r4.2; omega)
  rw [hfees] at hc; cases hc
  have hf := isFunded_bare hb (isFunded_of (t := .v144 { r with coinInputs := x.1, refund := x.2.1, fee := some x.2.2, key := some k.2 }) hs hfee gc hx rfl rfl rfl)
  cases t <;> simp only [bare, reduceCtorEq] at hb
  rename TxV144 => v
  simp only [Tx.v144.injEq, TxV144.mk.injEq] at hb
  obtain ⟨b1, b2, b3, b4, b5, b6, b7, -⟩ := hb
  rw [ac, r1, ← b2] at hf
  exact ⟨v, k.2, rfl, by rw [b3]; exact r1, r2, r3, by rw [b2]; exact r4, by rw [b1]; exact r5, b7, keyForIndex_spec hk, hf⟩

/-- The hypotheses about the wallet are met by the demonstration wallet. -/
theorem demoBots_sane : SaneOutputs (walletsSpendable (walletsRun toyHash [.chain 1000 1000, .report coin500 true false])) := by
  constructor
  · intro co hco
    rw [show walletsSpendable _ = [coin500] by decide +kernel] at hco
    simp only [List.mem_cons, List.not_mem_nil, or_false] at hco
    rcases hco with rfl
    exact ⟨rfl, by decide⟩
  · decide +kernel

example : ∃ w, demoBots.balance = .ok w ∧ SaneOutputs (walletsSpendable w) ∧ GoodCurrency demoBots.fee := ⟨_, rfl, demoBots_sane, rfl, by decide⟩
example : answered (demoBots.recordNew toyIp 3 (some [.str "example".toList, .str "another.example".toList]) (some [.str "example.org".toList]) (some 0) .none .none) =
    ([(144, 500000000000 - 90000000000 - 3 * 10000000000 - 50000000000 - 100000000)], .ok true) := by decide +kernel

theorem recordChange_spec {L : IpLib} {id months : Int} {na nr : Option (List NameArg)} {aa ar : Option (List NetArg)} {t : TxV145}
    (h : recordChange L id months na nr aa ar = .ok t) : t.botid = some id ∧ 0 < id ∧ t.months = months ∧ 0 ≤ months ∧ months ≤ 24 ∧
      Items 5 BotName.new na t.namesAdd ∧ Items 5 BotName.new nr t.namesRemove ∧ Items 10 (NetAddr.new L) aa t.addrsAdd ∧ Items 10 (NetAddr.new L) ar t.addrsRemove := by
  unfold recordChange at h
  simp only [bind, Except.bind] at h
  split at h
  · cases h
  · split at h
    · cases h
    · rename_i b hb
      have h1 : b = some id ∧ 0 < id := by
        unfold setBotId at hb
        split at hb
        · cases hb
        · cases hb; exact ⟨rfl, by omega⟩
      split at h
      · cases h
      · rename_i t0 ht0
        have h0 : t0.botid = b ∧ t0.months = months ∧ 0 ≤ months ∧ months ≤ 24 := by
          unfold TxV145.setMonths at ht0
          split at ht0
          · cases ht0
          · cases ht0; exact ⟨rfl, rfl, by omega, by omega⟩
        split at h
        · cases h
        · rename_i l1 g1
          split at h
          · cases h
          · rename_i l2 g2
            split at h
            · cases h
            · rename_i l3 g3
              split at h
              · cases h
              · rename_i l4 g4
                cases h
                exact ⟨by rw [← h1.1]; exact h0.1, h1.2, h0.2.1, h0.2.2.1, h0.2.2.2, assignList_items g1, assignList_items g2, assignList_items g3, assignList_items g4⟩

theorem activeOrPaid_spec {W : World} {id months : Int} {k : PublicKey} (h : W.activeOrPaid id months = .ok k) :
    (∃ exp, W.record id = .ok (k, exp)) ∧ (months = 0 → ActiveBot W id k) := by
  unfold World.activeOrPaid at h
  simp only [bind, Except.bind] at h
  split at h
  · cases h
  · rename_i x hx
    obtain ⟨k', exp⟩ := x
    simp only at h
    split at h
    · cases h
    · rename_i now hnow
      split at h
      · cases h
      · rename_i hc
        cases h
        exact ⟨⟨exp, hx⟩, fun h0 => ⟨exp, now, hx, hnow, by omega⟩⟩

/-- **C79** (what holds: `threebot.record_update`). Whatever the operation posts or returns is an update of exactly the given 3Bot, to be signed
with the key of its record, by exactly the given months (0 to 24), names and addresses; and it spends exactly the price of the months, 20 TFT if
any address changes and 50 TFT per added name, besides the miner fee and what returns to the refund address. -/
theorem C79_record_update_partial (W : World) (w : Wallets) (L : IpLib) (id months : Int) (namesAdd namesRemove : Option (List NameArg))
    (addrsAdd addrsRemove : Option (List NetArg)) (src : Source) (refund : Recipient) (t : Tx) (hw : W.balance = .ok w)
    (hs : SaneOutputs (walletsSpendable w)) (hfee : GoodCurrency W.fee)
    (ht : Produces (W.recordUpdate L id months namesAdd namesRemove addrsAdd addrsRemove src refund) t) :
    ∃ (v : TxV145) (k : PublicKey) (exp : Int), t = .v145 v ∧ v.botid = some id ∧ 0 < id ∧ v.months = months ∧ 0 ≤ months ∧ months ≤ 24 ∧
      Items 5 BotName.new namesAdd v.namesAdd ∧ Items 5 BotName.new namesRemove v.namesRemove ∧
      Items 10 (NetAddr.new L) addrsAdd v.addrsAdd ∧ Items 10 (NetAddr.new L) addrsRemove v.addrsRemove ∧
      W.record id = .ok (k, exp) ∧ v.parentKey = some k ∧
      IsFunded W w (monthlyPrice months.toNat + (if v.addrsAdd = [] ∧ v.addrsRemove = [] then 0 else 20 * 10^9) + 50 * 10^9 * v.namesAdd.length)
        src refund t := by
  obtain ⟨r, hr, ht⟩ := ofRes_produces ht
  obtain ⟨k, hk, ht⟩ := ofRes_produces ht
  obtain ⟨fees, hfees, ht⟩ := ofRes_produces ht
  obtain ⟨w', hw', ht⟩ := ofRes_produces ht
  rw [hw] at hw'; cases hw'
  obtain ⟨x, hx, ht⟩ := ofRes_produces ht
  have hb := signSubmit_produces ht
  obtain ⟨r1, r2, r3, r4, r5, r6, r7, r8, r9⟩ := recordChange_spec hr
  obtain ⟨c, hc, gc, ac⟩ := (C45_update_fee r {} (by omega) (by have := r6.2; omega) (by decide)).1
  rw [hfees] at hc; cases hc
  have hf := isFunded_bare hb (isFunded_of (t := .v145 { r with parentKey := some k, coinInputs := x.1, refund := x.2.1, fee := some x.2.2 }) hs hfee gc hx rfl rfl rfl)
  cases t <;> simp only [bare, reduceCtorEq] at hb
  rename TxV145 => v
  simp only [Tx.v145.injEq, TxV145.mk.injEq] at hb
  obtain ⟨b1, b2, b3, b4, b5, b6, b7, b8, b9, b10, b11⟩ := hb
  rw [ac, r3, ← b2, ← b3, ← b4] at hf
  obtain ⟨⟨exp, he⟩, _⟩ := activeOrPaid_spec hk
  exact ⟨v, k, exp, rfl, by rw [b1]; exact r1, r2, by rw [b6]; exact r3, r4, r5, by rw [b4]; exact r6, by rw [b5]; exact r7, by rw [b2]; exact r8,
    by rw [b3]; exact r9, he, b11, hf⟩

example : answered (demoBots.recordUpdate toyIp 3 1 (some [.str "example".toList]) none none (some [.str "example.org".toList]) .none .none) =
    ([(145, 500000000000 - 10000000000 - 20000000000 - 50000000000 - 100000000)], .ok true) := by decide +kernel

/-- **C80** (inactive 3Bots cannot be updated unless months are paid). Whatever `threebot.record_update` posts or returns without months is for
a 3Bot whose record has not expired. -/
theorem C80_update_active (W : World) (L : IpLib) (id : Int) (namesAdd namesRemove : Option (List NameArg))
    (addrsAdd addrsRemove : Option (List NetArg)) (src : Source) (refund : Recipient) (t : Tx)
    (ht : Produces (W.recordUpdate L id 0 namesAdd namesRemove addrsAdd addrsRemove src refund) t) : ∃ k, ActiveBot W id k := by
  obtain ⟨r, hr, ht⟩ := ofRes_produces ht
  obtain ⟨k, hk, ht⟩ := ofRes_produces ht
  exact ⟨k, (activeOrPaid_spec hk).2 rfl⟩

example : answered (demoBots.recordUpdate toyIp 1 0 (some [.str "example".toList]) none none none .none .none) = ([(145, 449900000000)], .ok true) ∧
    answered (demoBots.recordUpdate toyIp 3 0 (some [.str "example".toList]) none none none .none .none) = ([], .error .threeBotInactive) := by decide +kernel

theorem activeKey_spec {W : World} {now id : Int} {k : PublicKey} (hn : W.chainTime = .ok now) (h : W.activeKey now id = .ok k) : ActiveBot W id k := by
  unfold World.activeKey at h
  simp only [bind, Except.bind] at h
  split at h
  · cases h
  · rename_i x hx
    obtain ⟨k', exp⟩ := x
    simp only at h
    split at h
    · cases h
    · rename_i hc
      cases h
      exact ⟨exp, now, hx, hn, by omega⟩

theorem transfer_items {W : World} {sender receiver : Int} {names : Option (List NameArg)} {t : TxV146} (h : W.transfer sender receiver names = .ok t) :
    t.sender = some sender ∧ 0 < sender ∧ t.receiver = some receiver ∧ 0 < receiver ∧ Items 5 BotName.new names t.names ∧ t.names ≠ [] ∧
    ∃ a b, t.senderKey = some a ∧ ActiveBot W sender a ∧ t.receiverKey = some b ∧ ActiveBot W receiver b := by
  have id_spec : ∀ {i : Int} {o : Option Int}, setBotId i = .ok o → o = some i ∧ 0 < i := by
    intro i o hb
    unfold setBotId at hb
    split at hb
    · cases hb
    · cases hb; exact ⟨rfl, by omega⟩
  unfold World.transfer at h
  simp only [bind, Except.bind] at h
  split at h
  · cases h
  · rename_i a ha
    split at h
    · cases h
    · rename_i b hb
      split at h
      · cases h
      · rename_i ns hns
        split at h
        · cases h
        · rename_i hl
          split at h
          · cases h
          · rename_i now hnow
            split at h
            · cases h
            · rename_i ka hka
              split at h
              · cases h
              · rename_i kb hkb
                cases h
                obtain ⟨rfl, h1⟩ := id_spec ha
                obtain ⟨rfl, h2⟩ := id_spec hb
                exact ⟨rfl, h1, rfl, h2, assignList_items hns, fun e => hl (List.length_eq_zero_iff.2 e), ka, kb, rfl, activeKey_spec hnow hka, rfl, activeKey_spec hnow hkb⟩

/-- **C79**, **C80** (what holds: `threebot.name_transfer`). Whatever the operation posts or returns transfers exactly the given names (at least
one, at most 5) from and to exactly the given 3Bots, which are both active, to be signed with the keys of their records; and it spends exactly
50 TFT per name, besides the miner fee and what returns to the refund address. -/
theorem C79_name_transfer_partial (W : World) (w : Wallets) (sender receiver : Int) (names : Option (List NameArg)) (src : Source) (refund : Recipient)
    (t : Tx) (hw : W.balance = .ok w) (hs : SaneOutputs (walletsSpendable w)) (hfee : GoodCurrency W.fee)
    (ht : Produces (W.nameTransfer sender receiver names src refund) t) :
    ∃ (v : TxV146) (a b : PublicKey), t = .v146 v ∧ v.sender = some sender ∧ 0 < sender ∧ v.receiver = some receiver ∧ 0 < receiver ∧
      Items 5 BotName.new names v.names ∧ v.names ≠ [] ∧ v.senderKey = some a ∧ ActiveBot W sender a ∧ v.receiverKey = some b ∧ ActiveBot W receiver b ∧
      IsFunded W w (50 * 10^9 * v.names.length) src refund t := by
  obtain ⟨r, hr, ht⟩ := ofRes_produces ht
  obtain ⟨fees, hfees, ht⟩ := ofRes_produces ht
  obtain ⟨w', hw', ht⟩ := ofRes_produces ht
  rw [hw] at hw'; cases hw'
  obtain ⟨x, hx, ht⟩ := ofRes_produces ht
  have hb := signSubmit_produces ht
  obtain ⟨r1, r2, r3, r4, r5, r6, a, b, r7, r8, r9, r10⟩ := transfer_items hr
  obtain ⟨c, hc, gc, ac⟩ := (C45_update_fee {} r (by decide) (by decide) (by have := r5.2; omega)).2
  rw [hfees] at hc; cases hc
  have hf := isFunded_bare hb (isFunded_of (t := .v146 { r with coinInputs := some x.1, refund := x.2.1, fee := some x.2.2 }) hs hfee gc hx rfl rfl rfl)
  cases t <;> simp only [bare, reduceCtorEq] at hb
  rename TxV146 => v
  simp only [Tx.v146.injEq, TxV146.mk.injEq] at hb
  obtain ⟨b1, b2, b3, b4, b5, b6, -, -, b9, b10⟩ := hb
  rw [ac, ← b3] at hf
  exact ⟨v, a, b, rfl, by rw [b1]; exact r1, r2, by rw [b2]; exact r3, r4, by rw [b3]; exact r5, by rw [b3]; exact r6, by rw [b9]; exact r7, r8,
    by rw [b10]; exact r9, r10, hf⟩

example : (demoBots.nameTransfer 1 2 (some [.str "example".toList]) .none .none).result.map (fun x => (total x.1.coinOutputs, x.2)) =
    .ok (500000000000 - 50000000000 - 100000000, false) := by decide +kernel

/-- **C80** (names are transferred between active 3Bots only). -/
theorem C80_transfer_active (W : World) (sender receiver : Int) (names : Option (List NameArg)) (src : Source) (refund : Recipient) (t : Tx)
    (ht : Produces (W.nameTransfer sender receiver names src refund) t) : (∃ k, ActiveBot W sender k) ∧ ∃ k, ActiveBot W receiver k := by
  obtain ⟨r, hr, ht⟩ := ofRes_produces ht
  obtain ⟨-, -, -, -, -, -, a, b, -, h1, -, h2⟩ := transfer_items hr
  exact ⟨⟨a, h1⟩, b, h2⟩

example : ({ demoBots with keys := { demoBots.keys with pairs := demoBots.keys.pairs ++ [((addrOf key2).str toyHash, key2)] } }.nameTransfer 1 2
      (some [.str "example".toList]) .none .none).posted.length = 1 ∧
    answered (demoBots.nameTransfer 1 3 (some [.str "example".toList]) .none .none) = ([], .error .threeBotInactive) := by decide +kernel

/-- **C80** (finding). "At least one name or one address is required" and "one of … has to be a value other than 0/None", but empty lists
pass both checks: a 3Bot without names and addresses is registered (and paid for), and an update that changes nothing is submitted. -/
theorem C80_something_given_false :
    (∃ (W : World) (t : Tx) (v : TxV144), t ∈ (W.recordNew toyIp 1 (some []) none none .none .none).posted ∧ t = .v144 v ∧ v.names = [] ∧ v.addresses = []) ∧
    ∃ (W : World) (t : Tx) (v : TxV145), t ∈ (W.recordUpdate toyIp 1 0 (some []) none none none .none .none).posted ∧ t = .v145 v ∧ v.months = 0 ∧
      v.namesAdd = [] ∧ v.namesRemove = [] ∧ v.addrsAdd = [] ∧ v.addrsRemove = [] := by
  have h1 : ∃ t, (demoBots.recordNew toyIp 1 (some []) none none .none .none).posted = [t] ∧ ∃ v, t = .v144 v ∧ v.names = [] ∧ v.addresses = [] := by
    cases h : (demoBots.recordNew toyIp 1 (some []) none none .none .none).posted with
    | nil => exact absurd h (by decide +kernel)
    | cons t l =>
      have hl : l = [] := by
        have : (demoBots.recordNew toyIp 1 (some []) none none .none .none).posted.length = 1 := by decide +kernel
        rw [h] at this; simpa using this
      subst hl
      have : ([t].map fun t => match t with | .v144 v => v.names.length + v.addresses.length | _ => 1) = [0] := by rw [← h]; decide +kernel
      refine ⟨t, rfl, ?_⟩
      cases t <;> simp at this
      exact ⟨_, rfl, this.1, this.2⟩
  have h2 : ∃ t, (demoBots.recordUpdate toyIp 1 0 (some []) none none none .none .none).posted = [t] ∧ ∃ v, t = .v145 v ∧ v.months = 0 ∧
      v.namesAdd = [] ∧ v.namesRemove = [] ∧ v.addrsAdd = [] ∧ v.addrsRemove = [] := by
    cases h : (demoBots.recordUpdate toyIp 1 0 (some []) none none none .none .none).posted with
    | nil => exact absurd h (by decide +kernel)
    | cons t l =>
      have hl : l = [] := by
        have : (demoBots.recordUpdate toyIp 1 0 (some []) none none none .none .none).posted.length = 1 := by decide +kernel
        rw [h] at this; simpa using this
      subst hl
      have : ([t].map fun t => match t with
        | .v145 v => v.months.toNat + (-v.months).toNat + v.namesAdd.length + v.namesRemove.length + v.addrsAdd.length + v.addrsRemove.length | _ => 1) = [0] := by
        rw [← h]; decide +kernel
      refine ⟨t, rfl, ?_⟩
      cases t <;> simp at this
      rename TxV145 => v
      obtain ⟨⟨⟨⟨a, b⟩, c⟩, d⟩, e⟩ := this
      exact ⟨v, rfl, a, b, c, d, e⟩
  obtain ⟨t, ht, v, hv⟩ := h1
  obtain ⟨t', ht', v', hv'⟩ := h2
  exact ⟨⟨demoBots, t, v, by rw [ht]; simp, hv⟩, demoBots, t', v', by rw [ht']; simp, hv'⟩

/-- **C79** (what holds: `erc20.address_register`). Whatever the operation posts or returns registers exactly the key asked for, and spends
exactly the registration fee of 10 TFT, besides the miner fee and what returns to the refund address. -/
theorem C79_address_register_partial (W : World) (w : Wallets) (which : WhichKey) (src : Source) (refund : Recipient) (t : Tx)
    (hw : W.balance = .ok w) (hs : SaneOutputs (walletsSpendable w)) (hfee : GoodCurrency W.fee)
    (ht : Produces (W.addressRegister which src refund) t) :
    ∃ (v : TxV210) (k : PublicKey), t = .v210 v ∧ v.key = some k ∧ KeyNamed W which k ∧ IsFunded W w (10 * 10^9) src refund t := by
  obtain ⟨k, hk, ht⟩ := ofRes_produces ht
  obtain ⟨w', hw', ht⟩ := ofRes_produces ht
  rw [hw] at hw'; cases hw'
  obtain ⟨x, hx, ht⟩ := ofRes_produces ht
  have hb := signSubmit_produces ht
  have hg : GoodCurrency registrationFee := ⟨rfl, by decide⟩
  have ha : amount registrationFee = 10 * 10^9 := by decide
  have hf := isFunded_bare hb (isFunded_of (t := .v210 { key := some k.2, coinInputs := some x.1, refund := x.2.1, fee := some x.2.2 }) hs hfee hg hx rfl rfl rfl)
  cases t <;> simp only [bare, reduceCtorEq] at hb
  rename TxV210 => v
  simp only [Tx.v210.injEq, TxV210.mk.injEq] at hb
  rw [ha] at hf
  exact ⟨v, k.2, rfl, hb.1, keyFor_spec hk, hf⟩

example : answered (demoBots.addressRegister (.uh (addrOf key1)) .none .none) = ([(210, 500000000000 - 10000000000 - 100000000)], .ok true) := by decide +kernel

end TF.Props
