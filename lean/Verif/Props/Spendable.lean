import Verif.Spec.Means
import Verif.Props.Arrive
import Verif.Props.Live
/-! # C136: what a wallet owns it can spend -/
namespace TF.Props
open TF TF.Spec

theorem lock_unlocked {S : ChainState} {c : Condition} (h : LockPassed S c) (h1 : 0 < S.height) : lockedCheck c.lock S.height S.time = false := by
  have key : ∀ v : Int, (if v < 500000000 then v ≤ S.height else v ≤ S.time) → lockedCheck v S.height S.time = false := by
    intro v hv
    cases hc : lockedCheck v S.height S.time with
    | false => rfl
    | true =>
      exfalso
      have := (C27_lock_boundary v S.height S.time).1 hc
      by_cases e : v < 500000000
      · rw [if_pos e] at this hv; omega
      · rw [if_neg e] at this hv; omega
  cases c with
  | lockTime v c => exact key v h
  | _ => exact key 0 (by rw [if_pos (by decide)]; omega)

theorem unlocked_offered {S : ChainState} (hl : LawfulChain S) {info : ChainInfo} (hh : info.height = S.height) (ht : info.time = S.time) {b : Balance}
    (hk : KnowsChain b info) {co : CoinOutput} (hb : co ∈ counted b) (hp : LockPassed S co.condition) : co ∈ spendable b := by
  obtain ⟨k1, k2, _⟩ := hk
  have h1 : 0 < b.time := by rw [k1, ht]; exact hl.started.2
  have h2 : 0 < b.height := by rw [k2, hh]; exact hl.started.1
  have hk : b.knowsChain = true := by simp [Balance.knowsChain, h1, h2]
  unfold spendable Balance.available Balance.unconfAvailable
  rw [if_pos hk, if_pos hk, ← List.filter_append, List.mem_filter]
  refine ⟨hb, ?_⟩
  simp only [Balance.isLocked, Bool.not_eq_true']
  rw [k1, k2, hh, ht]
  exact lock_unlocked hp hl.started.1

/-- The text of an address tells its type. -/
theorem type_of_text {H : Bytes → Bytes} {u v : UnlockHash} (e : u.str H = v.str H) : u.type = v.type := by
  have key : ∀ w : UnlockHash, (w.str H).take 2 = toHex [w.type] := by
    intro w
    unfold UnlockHash.str
    rw [List.append_assoc, List.take_append_of_le_length (by rw [toHex_length]; simp)]
    exact List.take_of_length_le (by rw [toHex_length]; simp)
  have := toHex_inj ((key u).symm.trans ((congrArg _ e).trans (key v)))
  simpa using this

theorem multiSig_names {H : Bytes → Bytes} (hH : Digest32 H) {os : List UnlockHash} {n : Int} {u : UnlockHash} (h : (Condition.multiSig os n).unlockhash H = .ok u) :
    Names H (u.str H) u ∧ u.type = 3 := by
  unfold Condition.unlockhash at h
  obtain ⟨leaves, hl, h⟩ := bind_ok h
  have hne : leaves ≠ [] := by
    unfold multiSigLeaves at hl
    simp only [bind, Except.bind] at hl
    repeat' split at hl
    all_goals first | (cases hl; done) | (cases hl; simp)
  rw [C07_merkle_root H leaves hne] at h
  cases h
  exact ⟨(C22_address_roundtrip H hH _ (.inl ⟨by simp, merkle_length hH leaves⟩)).2, rfl⟩

theorem informed_filed {W : World} {C : Client} {own : List UnlockHash} {S : ChainState} (hi : Informed W C own S) {w : Wallets} (hw : W.balance = .ok w) :
    WellFiled W.H w := by
  have ho := hi.chain
  obtain ⟨g1, _, _, info, g4⟩ := offered_spec ho hi.mints hi.withdrawals hw
  rw [ho.hash] at g1 g4
  constructor
  · intro co hco
    obtain ⟨_, u, _, h1, _, v, hv, e⟩ := g1 co hco
    refine ⟨v, hv, ?_⟩
    rw [type_of_text e, h1]; decide
  · intro p hp
    obtain ⟨u, h, _, hadr, _⟩ := g4 p hp
    unfold MultiBalance.address at hadr
    obtain ⟨v, hv, hadr⟩ := bind_ok hadr
    have e : v.str W.H = p.1 := by injection hadr
    rw [← e]
    exact ⟨v, multiSig_names ho.digest hv⟩

theorem informed_good {W : World} {C : Client} {own : List UnlockHash} {S : ChainState} (hi : Informed W C own S)
    (ordinary : ∀ co, UnspentOn S co → Identified co → Ordinary W co.condition) {w : Wallets} (hw : W.balance = .ok w) : GoodBalance W w := by
  obtain ⟨h1, _, h3⟩ := offered_all hi.chain hi.mints hi.withdrawals hw
  refine ⟨informed_filed hi hw, h3, fun co hco => ?_⟩
  obtain ⟨⟨k1, k2, _⟩, _⟩ := h1 co hco
  exact ⟨Nat.le_of_eq k1, ordinary co k2 k1⟩

/-- The wallet has the keys of what its own addresses hold. -/
theorem own_unlockable {W : World} {u : UnlockHash} (h1 : u.type = 1) (hk : ∃ k, W.keys.lookup (u.str W.H) = some k) {co : CoinOutput}
    (hat : AtAddress W.H (u.str W.H) co) (ho : Ordinary W co.condition) : Unlockable W co.condition := by
  obtain ⟨v, hv, e⟩ := hat
  have ht := (type_of_text e).trans h1
  have hun : co.condition.unwrap.unlockhash W.H = .ok v := by
    cases hc : co.condition <;> rw [hc] at hv <;> exact hv
  unfold Ordinary at ho
  unfold Unlockable
  cases hu : co.condition.unwrap with
  | nil =>
    rw [hu] at hun
    cases hun
    exact absurd ht (by decide)
  | unlockHash x =>
    rw [hu] at hun
    cases hun
    obtain ⟨k, hk⟩ := hk
    have hg : W.keys.get? (v.str W.H) = some k := by
      unfold Keys.get?
      have h2 : (v.str W.H).take 2 = toHex [v.type] := by
        unfold UnlockHash.str
        rw [List.append_assoc, List.take_append_of_le_length (by rw [toHex_length]; simp)]
        exact List.take_of_length_le (by rw [toHex_length]; simp)
      rw [if_neg (by rw [h2, ht]; decide), e, hk]
    show heldKeys W [v] ≠ []
    simp [heldKeys, hg]
  | multiSig os n =>
    rw [hu] at hun
    rw [(multiSig_type hun)] at ht
    exact absurd ht (by decide)
  | atomicSwap a b hs l =>
    rw [hu] at hun
    unfold Condition.unlockhash at hun
    obtain ⟨d, _, hun⟩ := bind_ok hun
    obtain ⟨d', _, hun⟩ := bind_ok hun
    cases hun
    exact absurd (show (2 : UInt8) = 1 from ht) (by decide)
  | lockTime l c =>
    rw [hu] at ho
    exact ho.elim
where
  multiSig_type {os : List UnlockHash} {n : Int} {v : UnlockHash} (h : (Condition.multiSig os n).unlockhash W.H = .ok v) : v.type = 3 := by
    unfold Condition.unlockhash at h
    obtain ⟨_, _, h⟩ := bind_ok h
    obtain ⟨_, _, h⟩ := bind_ok h
    cases h
    rfl

theorem informed_knows {W : World} {C : Client} {own : List UnlockHash} {S : ChainState} (hi : Informed W C own S) {w : Wallets} {info : ChainInfo}
    (hb : C.walletBalance (.ok info) (own.map fun u => u.str C.H) = .ok (.wallets w)) : KnowsChain w.base info := by
  have ho := hi.chain
  have hnw := hi.withdrawals
  have hcoh : CoherentAll C (OwnHistory C own) := by
    refine ⟨?_, ?_⟩
    · rintro h ⟨u, hu, hg⟩; exact truthful_coherent ho.lawful ho.truthful hg (hnw h (.inl ⟨u, hu, hg⟩))
    · rintro h h' co c co' c' ⟨u, hu, hg⟩ ⟨u', _, hg'⟩ k1 k2 e
      exact truthful_ids ho.lawful ho.truthful hg hg' (hnw h (.inl ⟨u, hu, hg⟩)) k1 k2 e
  obtain ⟨w', e, hk, _⟩ := C96_balance_partial C own (fun u hu => (ho.personal u hu).1) info (.wallets w) hb hcoh (by
    rintro h hs
    refine ⟨?_, hi.mints h hs⟩
    have hn := hnw h (.inr hs)
    obtain ⟨_, _, u, _, hg⟩ := hs
    exact truthful_coherent ho.lawful ho.truthful hg hn)
  cases e
  exact hk

/-- **C136.** What a wallet owns it can spend. -/
theorem C136_spendable_partial (W : World) (C : Client) (own : List UnlockHash) (S : ChainState) (hi : Informed W C own S) (ha : Answering C own S)
    (keys : GoodKeys W) (held : ∀ u ∈ own, ∃ k, W.keys.lookup (u.str W.H) = some k) (primary : ∃ u ∈ own, Names W.H W.keys.primary u)
    (ordinary : ∀ co, UnspentOn S co → Identified co → Ordinary W co.condition) (readable : ∃ w, W.balance = .ok w)
    (coins : List CoinOutput) (nodup : coins.Nodup) (few : coins.length ≤ 99)
    (owned : ∀ co ∈ coins, UnspentOn S co ∧ Identified co ∧ AtAny W.H own co ∧ LockPassed S co.condition)
    (r : Recipient) (amt : CVal) (legal : ∀ c, amt = .cur c → GoodCurrency c) (lock : LockVal) (data : DataArg) (chain : r.erc20? = none) (v : Nat) (c : Condition)
    (hask : asked W.H r amt lock = some (v, c)) (fits : ConditionFits c) (b : Bytes) (hd : payload data = some b) (hdl : b.length ≤ 83)
    (enough : v + amount W.fee ≤ total coins) :
    ∃ t, (W.coinsSend r amt .none .none lock data).posted = [t] ∧ ValidOn W S t ∧ (∃ rest, t.coinOutputs.map pays = (v, c) :: rest) ∧
      ∀ ids : List Hash, ids.length = t.coinOutputs.length → ids.Nodup →
      (∀ id ∈ ids, id.value.length = 32 ∧ ¬ SpentOn S id ∧ ∀ co, CreatedOn S co → co.id ≠ id) → ∃ S', Accepts S t S' := by
  obtain ⟨w, hw⟩ := readable
  have ho := hi.chain
  obtain ⟨info, hh, ht, hb⟩ := ho.balance w hw
  have hk : KnowsChain w.base info := informed_knows hi hb
  have hmem := (base_members hi ha hw).2
  have heligible : ∀ co ∈ coins, Eligible W.H w .none co := by
    intro co hco
    obtain ⟨h1, h2, h3, h4⟩ := owned co hco
    obtain ⟨u, _, v, hv, _⟩ := id h3
    exact .personal v (unlocked_offered ho.lawful hh ht hk ((hmem co).2 ⟨⟨h1, h2⟩, h3⟩) h4) hv trivial
  have hgood := informed_good hi ordinary hw
  obtain ⟨u, hu, hp⟩ := primary
  have hrf : GoodRefund W w .none .none := by
    refine ⟨fun _ => ⟨u, hp⟩, fun h => absurd rfl h, fun c hc => ?_⟩
    generalize hsrc : Source.none = src0 at hc
    generalize hr0 : Recipient.none = r0 at hc
    cases hc with
    | given _ _ h _ => exact absurd hr0.symm h
    | source u single _ => subst hsrc; exact absurd single (by simp [SingleSource])
    | multi u m _ single _ _ _ => subst hsrc; exact absurd single (by simp [SingleSource])
    | primary u' _ hu' =>
      unfold Names at hp
      rw [hp] at hu'
      cases hu'
      show u.hash.value.length ≤ 32
      rcases (ho.personal u hu).2 with h | h
      · omega
      · rw [h.2]; simp
  obtain ⟨_, hpost⟩ := C100_coins_send_partial W w r amt .none .none lock data v c b ho.digest keys hi.fee hw hgood chain legal hask fits
    ⟨(by rintro s (h | ⟨l, h, _⟩) <;> cases h), (by rintro s h; cases h), by intro u m h; exact absurd h (by simp [SingleSource])⟩ (.inl fun _ h => absurd rfl h)
    ⟨coins, nodup, few, heligible, enough⟩ hrf hd hdl
  obtain ⟨t, ht⟩ := hpost fun co hco => by
    cases hco with
    | personal x offered address _ =>
      have hc := (hmem co).1 ((spendable_sub _).subset offered)
      obtain ⟨⟨h1, h2⟩, y, hy, hat⟩ := hc
      exact own_unlockable (ho.personal y hy).1 (held y hy) hat (ordinary co h1 h2)
    | multi _ _ _ _ _ _ given _ => exact absurd rfl given
  have hvalid : ValidOn W S t := C120_valid_partial W C own S ho hi.mints hi.withdrawals hi.fee hi.positive .none .none _ (.coins r amt lock data legal) t (by rw [ht]; simp)
  have hout : ∃ rest, t.coinOutputs.map pays = (v, c) :: rest := by
    obtain ⟨pay, hp, hpay⟩ := C56_coins_send_partial W w r amt .none .none lock data t hw (offered_all ho hi.mints hi.withdrawals hw).2.2 hi.fee legal chain
      (.inl (by rw [ht]; simp))
    rw [hask] at hp
    cases hp
    obtain ⟨rest, h, _⟩ := hpay.outputs
    exact ⟨rest, h⟩
  refine ⟨t, ht, hvalid, hout, fun ids h1 h2 h3 => ?_⟩
  obtain ⟨l, _, hl, _⟩ := hvalid.inputs
  exact accepts_exists ho.lawful t ids h1 h2 h3 l hl

theorem primary_refund {W : World} {w : Wallets} {u : UnlockHash} (hu : CanonicalAddress u) (hp : Names W.H W.keys.primary u) {src : Source}
    (single : ∀ x, SingleSource W.H src x → x.type = 3)
    (remade : ∀ x m, SingleSource W.H src x → w.wallets.get? (x.str W.H) = some m → ∀ c, multiSigNew W.H (m.owners.map fun o => .str (o.str W.H)) (.int m.required) = .ok c → ConditionFits c) :
    GoodRefund W w src .none := by
  refine ⟨fun _ => ⟨u, hp⟩, fun h => absurd rfl h, fun c hc => ?_⟩
  generalize hr0 : Recipient.none = r0 at hc
  cases hc with
  | given _ _ h _ => exact absurd hr0.symm h
  | source x h1 h2 => rw [single x h1] at h2; exact absurd h2 (by decide)
  | multi x m _ h1 _ h3 h4 => exact remade x m h1 h3 c h4
  | primary u' _ hu' =>
    unfold Names at hp
    rw [hp] at hu'
    cases hu'
    show u.hash.value.length ≤ 32
    rcases hu with h | h
    · omega
    · rw [h.2]; simp

/-- A multi-signature balance has its owners from an output that the history describes. -/
theorem multi_owners {H : Bytes → Bytes} {h : History} (ht : h.address.type = 3) (hd : ∀ t ∈ h.txs, ¬ IsMintDefinition t.tx) {info : ChainInfo} {m : MultiBalance}
    (hb : h.balance H info = .ok (.multi m)) :
    (∃ t ∈ h.txs, ∃ o, Touches t.tx o ∧ o.condition.unwrap = .multiSig m.owners m.required) ∧ 1 ≤ m.required ∧ m.required ≤ m.owners.length := by
  let P : Option MultiBalance → Prop := fun b => ∀ m, b = some m →
    (∃ t ∈ h.txs, ∃ o, Touches t.tx o ∧ o.condition.unwrap = .multiSig m.owners m.required) ∧ 1 ≤ m.required ∧ m.required ≤ m.owners.length
  have keep : ∀ (a : Str) (c s : Bool) (t : ChainTx) (o : CoinOutput) (b b' : Option MultiBalance), t ∈ h.txs → Touches t.tx o → P b → multiAddIfOf H a c s b o = .ok b' → P b' := by
    intro a c s t o b b' htm hto hb h
    unfold multiAddIfOf at h
    obtain ⟨u, hu, h⟩ := bind_ok h
    split at h
    · cases hw : o.condition.unwrap with
      | multiSig os n =>
        rw [hw] at h
        simp only at h
        cases b with
        | some m' =>
          obtain ⟨m, hm, h⟩ := bind_ok h
          obtain ⟨x, _, h⟩ := bind_ok h
          cases hm
          cases h
          intro m0 e
          cases e
          exact hb m' rfl
        | none =>
          obtain ⟨m, hm, h⟩ := bind_ok h
          obtain ⟨x, _, h⟩ := bind_ok h
          cases h
          intro m0 e
          cases e
          unfold MultiBalance.new at hm
          by_cases h1 : n < 1
          · rw [if_pos h1] at hm; cases hm
          · rw [if_neg h1] at hm
            by_cases h2 : (os.length : Int) < n
            · rw [if_pos h2] at hm; cases hm
            · rw [if_neg h2] at hm
              cases hm
              exact ⟨⟨t, htm, o, hto, hw⟩, by show 1 ≤ n; omega, by show n ≤ os.length; omega⟩
      | _ => rw [hw] at h; cases h
    · cases h; exact hb
  have fold : ∀ (a : Str) (c s : Bool) (t : ChainTx) (l : List CoinOutput) (b b' : Option MultiBalance), t ∈ h.txs → (∀ o ∈ l, Touches t.tx o) → P b →
      l.foldlM (multiAddIfOf H a c s) b = .ok b' → P b' := by
    intro a c s t l
    induction l with
    | nil => intro b b' _ _ hb h; cases h; exact hb
    | cons o l ih =>
      intro b b' htm hl hb h
      rw [List.foldlM_cons] at h
      obtain ⟨b1, h1, h⟩ := bind_ok h
      exact ih b1 b' htm (fun x hx => hl x (List.mem_cons_of_mem _ hx)) (keep a c s t o b b1 htm (hl o List.mem_cons_self) hb h1) h
  have all : ∀ (a : Str) (l : List ChainTx), (∀ t ∈ l, t ∈ h.txs) → ∀ b b', P b → l.foldlM (multiAddTx H a) b = .ok b' → P b' := by
    intro a l
    induction l with
    | nil => intro _ b b' hb h; cases h; exact hb
    | cons t l ih =>
      intro hl b b' hb h
      rw [List.foldlM_cons] at h
      obtain ⟨b1, h1, h⟩ := bind_ok h
      have htm := hl t List.mem_cons_self
      refine ih (fun t ht => hl t (List.mem_cons_of_mem _ ht)) b1 b' ?_ h
      unfold multiAddTx at h1
      obtain ⟨ins, hins, h1⟩ := bind_ok h1
      obtain ⟨b2, h2, h1⟩ := bind_ok h1
      obtain ⟨b3, h3, h1⟩ := bind_ok h1
      have hin : ∀ o ∈ ins.map CoinInput.parentOutput, Touches t.tx o := by
        intro o ho
        obtain ⟨ci, hci, rfl⟩ := List.mem_map.1 ho
        unfold Tx.inputsList at hins
        cases hl' : t.tx.coinInputs with
        | none => rw [hl'] at hins; cases hins
        | some l' =>
          rw [hl'] at hins
          cases hins
          exact .inl ⟨_, hl', ci, hci, rfl⟩
      have := fold a _ _ t _ b2 b3 htm (fun o ho => .inr ho) (fold a _ _ t _ b b2 htm hin hb h2) h3
      unfold multiMint at h1
      split at h1
      · rename_i v hv
        have := hd t htm
        rw [hv] at this
        exact absurd trivial this
      · cases h1; exact this
  unfold History.balance at hb
  rw [if_pos ht] at hb
  obtain ⟨b, hf, hb⟩ := bind_ok hb
  cases b with
  | none => cases hb
  | some m' =>
    cases hb
    exact all _ h.txs (fun _ h => h) none (some m') (fun _ h => by cases h) hf m' rfl

/-- The condition of a multi-signature wallet can be made anew, and fits. -/
theorem wallet_remade {W : World} {C : Client} {own : List UnlockHash} {S : ChainState} (hi : Informed W C own S) (plain : PlainOwners S) {w : Wallets} (hw : W.balance = .ok w)
    {p : Str × MultiBalance} (hp : p ∈ w.wallets) :
    ∃ c, multiSigNew W.H (p.2.owners.map fun o => .str (o.str W.H)) (.int p.2.required) = .ok c ∧ ConditionFits c := by
  have ho := hi.chain
  have hH : Digest32 C.H := by rw [ho.hash]; exact ho.digest
  obtain ⟨info, _, _, hb⟩ := ho.balance w hw
  have has := assembled_balance (fun u hu => (ho.personal u hu).1) hb
  obtain ⟨a, h, ⟨g, hown, u, hu, rfl⟩, hg, hbal, _⟩ := has.each p hp
  obtain ⟨v, hv, hgv⟩ := hown
  have hcan := (ho.truthful _ _ hgv).2.2 u hu
  have hu3 : u.type = 3 := by
    obtain ⟨_, _, _, _, _, _, h4⟩ := unlockhashGet_ok hgv
    obtain ⟨_, _, _, _, _, _, h9, _⟩ := readHistory_ok h4
    exact h9 u hu
  have haddr := history_address hH hcan hg
  have hsh : SharedHistory C own h := ⟨g, ⟨v, hv, hgv⟩, u, hu, hg⟩
  obtain ⟨⟨t, ht, o, hto, he⟩, h1, h2⟩ := multi_owners (by rw [haddr, hu3]) (hi.mints h hsh) hbal
  obtain ⟨few, full⟩ := plain t ((ho.truthful _ _ hg).1 t ht) o hto _ _ he
  have hm : ∀ l : List UnlockHash, (∀ u ∈ l, CanonicalAddress u) → (l.map fun o => OwnerArg.str (o.str W.H)).mapM (OwnerArg.resolve W.H) = (.ok l : Res (List UnlockHash)) := by
    intro l
    induction l with
    | nil => intro _; rfl
    | cons x l ih =>
      intro hl
      have hx : OwnerArg.resolve W.H (.str (x.str W.H)) = .ok x := (C22_address_roundtrip W.H ho.digest x (hl x List.mem_cons_self)).2
      rw [List.map_cons, List.mapM_cons, hx, ih fun y hy => hl y (List.mem_cons_of_mem _ hy)]
      rfl
  refine ⟨.multiSig p.2.owners p.2.required, ?_, few, fun u hu => ?_, by omega, ?_⟩
  · unfold multiSigNew
    rw [hm _ full]
    rfl
  · show u.hash.value.length ≤ 32
    rcases full u hu with h | h
    · omega
    · rw [h.2]; simp
  · have : p.2.owners.length ≤ 2 ^ 20 := few
    omega

/-- **C136** for what a multi-signature address owns that the history of an own address mentions: with enough owner keys the wallet can spend it. -/
theorem C136_shared_partial (W : World) (C : Client) (own : List UnlockHash) (S : ChainState) (hi : Informed W C own S)
    (keys : GoodKeys W) (primary : ∃ u ∈ own, Names W.H W.keys.primary u)
    (ordinary : ∀ co, UnspentOn S co → Identified co → Ordinary W co.condition) (w : Wallets) (hw : W.balance = .ok w)
    (u : UnlockHash) (mentioned : ∃ g, OwnHistory C own g ∧ u ∈ g.multisigs) (answered : Answering C [u] S)
    (plain : PlainOwners S)
    (able : ∀ co, UnspentOn S co → AtAny W.H [u] co → Unlockable W co.condition)
    (coins : List CoinOutput) (nodup : coins.Nodup) (few : coins.length ≤ 99)
    (owned : ∀ co ∈ coins, UnspentOn S co ∧ Identified co ∧ AtAny W.H [u] co ∧ LockPassed S co.condition)
    (r : Recipient) (amt : CVal) (legal : ∀ c, amt = .cur c → GoodCurrency c) (lock : LockVal) (data : DataArg) (chain : r.erc20? = none) (v : Nat) (c : Condition)
    (hask : asked W.H r amt lock = some (v, c)) (fits : ConditionFits c) (b : Bytes) (hd : payload data = some b) (hdl : b.length ≤ 83)
    (enough : v + amount W.fee ≤ total coins) :
    ∃ t, (W.coinsSend r amt (.one (.uh u)) .none lock data).posted = [t] ∧ ValidOn W S t ∧ (∃ rest, t.coinOutputs.map pays = (v, c) :: rest) ∧
      ∀ ids : List Hash, ids.length = t.coinOutputs.length → ids.Nodup →
      (∀ id ∈ ids, id.value.length = 32 ∧ ¬ SpentOn S id ∧ ∀ co, CreatedOn S co → co.id ≠ id) → ∃ S', Accepts S t S' := by
  have ho := hi.chain
  have hH : Digest32 C.H := by rw [ho.hash]; exact ho.digest
  obtain ⟨info, hh, ht, hb⟩ := ho.balance w hw
  obtain ⟨g, ⟨y, hy, hgv⟩, hug⟩ := mentioned
  have hcan := (ho.truthful _ _ hgv).2.2 u hug
  have hu3 : u.type = 3 := by
    obtain ⟨_, _, _, _, _, _, h4⟩ := unlockhashGet_ok hgv
    obtain ⟨_, _, _, _, _, _, h9, _⟩ := readHistory_ok h4
    exact h9 u hug
  have names_inj : ∀ x : UnlockHash, CanonicalAddress x → Names W.H (x.str W.H) u → x = u := by
    intro x hx hn
    have := (C22_address_roundtrip W.H ho.digest x hx).2
    unfold Names at hn
    rw [this] at hn
    exact Except.ok.inj hn
  have single : ∀ x, SingleSource W.H (.one (.uh u)) x → x = u := by
    rintro x (⟨s, h, hx⟩ | ⟨s, h, hx⟩)
    · cases h; exact hx
    · cases h
  have askedu : ∀ x, Asked W.H (.one (.uh u)) x → x = u := fun x h => h
  -- the outputs are in the multi-signature wallet
  have heligible : ∀ co ∈ coins, Eligible W.H w (.one (.uh u)) co := by
    intro co hco
    obtain ⟨h1, h2, ⟨u', hu', hat⟩, h4⟩ := owned co hco
    rw [List.mem_singleton] at hu'
    subst hu'
    obtain ⟨⟨t, hts, hct⟩, hns⟩ := id h1
    have hat' : AtAddress C.H (u'.str C.H) co := by rw [ho.hash]; exact hat
    have hcon : ConcernsAt C.H S (u'.str C.H) t := .inl ⟨co, hct, hat'⟩
    obtain ⟨h, hg⟩ := answered u' (by simp) ⟨t, hts, hcon⟩
    have had := history_address hH hcan hg
    have htin := (ho.truthful _ _ hg).2.1 t hts (by rw [had]; exact hcon)
    have hun : Unspent C.H h co (!t.unconfirmed) := by
      refine ⟨⟨t, htin, by simp, hct, by rw [had]; exact hat'⟩, ?_⟩
      rintro ⟨t', k1, k2⟩
      exact hns ⟨t', (ho.truthful _ _ hg).1 t' k1, k2⟩
    have hsh : SharedHistory C own h := ⟨g, ⟨y, hy, hgv⟩, u', hug, hg⟩
    have hnw := hi.withdrawals
    have hcoh : CoherentAll C (OwnHistory C own) := by
      refine ⟨?_, ?_⟩
      · rintro h ⟨u, hu, hg⟩; exact truthful_coherent ho.lawful ho.truthful hg (hnw h (.inl ⟨u, hu, hg⟩))
      · rintro h h' co c co' c' ⟨u, hu, hg⟩ ⟨u', _, hg'⟩ k1 k2 e
        exact truthful_ids ho.lawful ho.truthful hg hg' (hnw h (.inl ⟨u, hu, hg⟩)) k1 k2 e
    obtain ⟨w', e, _, _, _, g3, g4⟩ := C96_balance_partial C own (fun u hu => (ho.personal u hu).1) info (.wallets w) hb hcoh (by
      rintro h hs
      refine ⟨?_, hi.mints h hs⟩
      have hn := hnw h (.inr hs)
      obtain ⟨_, _, u, _, hg⟩ := hs
      exact truthful_coherent ho.lawful ho.truthful hg hn)
    cases e
    have : ∃ p ∈ w.wallets, co ∈ counted p.2.base := by
      rcases hc : t.unconfirmed with _ | _ <;> rw [hc] at hun
      · obtain ⟨p, hp, hm⟩ := (g3 co).2 ⟨h, hsh, hun⟩
        exact ⟨p, hp, List.mem_append_left _ hm⟩
      · obtain ⟨p, hp, hm⟩ := (g4 co).2 ⟨h, hsh, hun⟩
        exact ⟨p, hp, List.mem_append_right _ hm⟩
    obtain ⟨p, hp, hco'⟩ := this
    obtain ⟨x, _, hx2, hx3, _, _, hx6, info', i1, i2, i3⟩ := shared_members hi hw hp
    obtain ⟨_, x', hx', hatx⟩ := (hx6 co).1 hco'
    rw [List.mem_singleton] at hx'
    subst hx'
    have hxu := text_inj ho.digest hx2 hcan (at_inj hatx hat)
    subst hxu
    refine .multi p.1 p.2 x' hp (unlocked_offered ho.lawful i1 i2 i3 hco' h4) ?_ (by simp) rfl
    rw [hx3]
    exact (C22_address_roundtrip W.H ho.digest x' hcan).2
  have hgood := informed_good hi ordinary hw
  have hget : ∀ m, w.wallets.get? (u.str W.H) = some m → ∃ p ∈ w.wallets, p.1 = u.str W.H ∧ p.2 = m := by
    intro m h
    unfold MultiMap.get? at h
    obtain ⟨p, hp, rfl⟩ := Option.map_eq_some_iff.1 h
    exact ⟨p, List.mem_of_find?_eq_some hp, by simpa using List.find?_some hp, rfl⟩
  obtain ⟨a, ha1, hp⟩ := primary
  have hrf : GoodRefund W w (.one (.uh u)) .none := by
    refine primary_refund (ho.personal a ha1).2 hp (fun x hx => by rw [single x hx]; exact hu3) fun x m hx hm c hc => ?_
    rw [single x hx] at hm
    obtain ⟨p, hp, h1, rfl⟩ := hget m hm
    obtain ⟨c', h2, h3⟩ := wallet_remade hi plain hw hp
    rw [hc] at h2
    cases h2
    exact h3
  have hread : ReadableSource W.H w (.one (.uh u)) := by
    refine ⟨?_, (by intro s h; cases h), ?_⟩
    · rintro s (h | ⟨l, h, _⟩)
      · cases h; exact ⟨u, rfl, .inr hu3⟩
      · cases h
    · intro x m hx hm
      rw [single x hx] at hm
      obtain ⟨p, hp, h1, rfl⟩ := hget m hm
      obtain ⟨c', h2, _⟩ := wallet_remade hi plain hw hp
      exact ⟨c', h2⟩
  have hone : OneMultiSource W.H w (.one (.uh u)) := by
    refine ⟨by simp, fun x hx => by rw [askedu x hx]; exact hu3, ?_⟩
    obtain ⟨_, _, hnd, _⟩ := offered_spec ho hi.mints hi.withdrawals hw
    rw [List.Nodup, List.pairwise_map] at hnd
    refine hnd.imp_of_mem ?_
    rintro p q hp hq hne ⟨⟨x, hx, hnx⟩, x', hx', hnx'⟩
    rw [askedu x hx] at hnx
    rw [askedu x' hx'] at hnx'
    obtain ⟨z, _, hz, hz', _⟩ := shared_members hi hw hp
    obtain ⟨z2, _, hz2, hz2', _⟩ := shared_members hi hw hq
    rw [hz'] at hnx
    rw [hz2'] at hnx'
    apply hne
    rw [hz', hz2', names_inj z hz hnx, names_inj z2 hz2 hnx']
  obtain ⟨_, hpost⟩ := C100_coins_send_partial W w r amt (.one (.uh u)) .none lock data v c b ho.digest keys hi.fee hw hgood chain legal hask fits
    hread (.inr (.inr hone)) ⟨coins, nodup, few, heligible, enough⟩ hrf hd hdl
  obtain ⟨t, ht⟩ := hpost fun co hco => by
    cases hco with
    | personal x offered address hx =>
      exfalso
      obtain ⟨x', h1, h2⟩ := hgood.filed.personal co offered
      rw [address] at h1
      cases h1
      rw [askedu x hx] at h2
      exact h2 hu3
    | multi name m x wallet offered names given hx =>
      rw [askedu x hx] at names
      obtain ⟨z, _, hz, hz', _, _, hz6, _⟩ := shared_members hi hw wallet
      have hz' : name = z.str W.H := hz'
      rw [hz'] at names
      obtain rfl := names_inj z hz names
      obtain ⟨⟨h1, _⟩, h2⟩ := (hz6 co).1 ((spendable_sub _).subset offered)
      exact able co h1 h2
  have hvalid : ValidOn W S t :=
    C120_valid_partial W C own S ho hi.mints hi.withdrawals hi.fee hi.positive (.one (.uh u)) .none _ (.coins r amt lock data legal) t (by rw [ht]; simp)
  have hout : ∃ rest, t.coinOutputs.map pays = (v, c) :: rest := by
    obtain ⟨pay, hp, hpay⟩ := C56_coins_send_partial W w r amt (.one (.uh u)) .none lock data t hw (offered_all ho hi.mints hi.withdrawals hw).2.2 hi.fee legal chain
      (.inl (by rw [ht]; simp))
    rw [hask] at hp
    cases hp
    obtain ⟨rest, h, _⟩ := hpay.outputs
    exact ⟨rest, h⟩
  refine ⟨t, ht, hvalid, hout, fun ids h1 h2 h3 => ?_⟩
  obtain ⟨l, _, hl, _⟩ := hvalid.inputs
  exact accepts_exists ho.lawful t ids h1 h2 h3 l hl

/-! ## A wallet that spends what it owns -/

/-- The wallet of the first key, making signatures of 64 bytes. -/
def spenderAt (C : Client) : World := { onExplorer C with sign := liveWorld.sign }
@[inherit_doc spenderAt] def spenderOn (l : List (UnlockHash × List Json × List UnlockHash)) : World := spenderAt (explorerOf l)
theorem spenderAt_informed {C : Client} {own : List UnlockHash} {S : ChainState} (h : Informed (onExplorer C) C own S) : Informed (spenderAt C) C own S :=
  ⟨⟨h.chain.hash, h.chain.digest, h.chain.personal, h.chain.balance, h.chain.lawful, h.chain.truthful⟩, h.mints, h.withdrawals, h.fee, h.positive⟩
theorem spenderAt_balance (C : Client) : (spenderAt C).balance = (onExplorer C).balance := rfl
/-- What it owns before the payment of C135, and what its multi-signature address owns. -/
def ownCoin : CoinOutput := ⟨⟨some ⟨false, 4000000000, -9⟩⟩, .unlockHash (addrOf key1), ⟨List.replicate 32 21⟩⟩
@[inherit_doc ownCoin] def sharedCoin : CoinOutput := ⟨⟨some ⟨false, 2000000000, -9⟩⟩, .multiSig [addrOf key1] 1, ⟨0 :: List.replicate 31 6⟩⟩

theorem spender_informed : Informed (spenderOn beforeList) (explorerOf beforeList) [addrOf key1] beforeChain :=
  spenderAt_informed arrive_informed.1

theorem spender_keys : GoodKeys (spenderOn beforeList) := ⟨live_keys.filed, live_keys.full, live_keys.sig⟩

theorem unspent_of {S : ChainState} {co : CoinOutput} (h1 : co ∈ chainOutputs S) (h2 : co.id ∉ S.txs.flatMap fun t => (t.tx.coinInputs.getD []).map CoinInput.parentId) :
    UnspentOn S co := by
  refine ⟨mem_chainOutputs.1 h1, ?_⟩
  rintro ⟨t, ht, l, hl, ci, hci, e⟩
  apply h2
  rw [List.mem_flatMap]
  exact ⟨t, ht, List.mem_map.2 ⟨ci, by rw [hl]; exact hci, e⟩⟩

theorem before_outputs : (chainOutputs beforeChain).map (fun co => co.condition) =
    [.unlockHash (addrOf key1), .multiSig [addrOf key1] 1, .unlockHash (addrOf key1)] := by decide +kernel

theorem before_ordinary (co : CoinOutput) (h : UnspentOn beforeChain co) : Ordinary (spenderOn beforeList) co.condition := by
  have hd : ¬ HasAddress toyHash .default ((addrOf key1).str toyHash) := by
    rintro ⟨u, h1, h2⟩
    have : (PublicKey.default.unlockhash toyHash).map (·.str toyHash) ≠ .ok ((addrOf key1).str toyHash) := by decide +kernel
    apply this
    rw [h1]; exact congrArg Except.ok h2
  have hm : co.condition ∈ (chainOutputs beforeChain).map (fun co => co.condition) := List.mem_map.2 ⟨co, mem_chainOutputs.2 h.1, rfl⟩
  rw [before_outputs] at hm
  simp only [List.mem_cons, List.not_mem_nil, or_false] at hm
  rcases hm with e | e | e <;> rw [e]
  · exact hd
  · exact ⟨by decide, by decide +kernel, by show [addrOf key1].length ≤ 2 ^ 20; decide⟩
  · exact hd

theorem own_unspent : UnspentOn beforeChain ownCoin ∧ UnspentOn beforeChain sharedCoin :=
  ⟨unspent_of (by decide +kernel) (by decide +kernel), unspent_of (by decide +kernel) (by decide +kernel)⟩

theorem spender_balance : ∃ w, (spenderOn beforeList).balance = .ok w := by
  obtain ⟨w, _, _, _, h, _⟩ := arrive_balances
  exact ⟨w, (spenderAt_balance _).trans h⟩

theorem spender_primary : ∃ u ∈ [addrOf key1], Names (spenderOn beforeList).H (spenderOn beforeList).keys.primary u :=
  ⟨addrOf key1, by simp, show UnlockHash.fromJson toyHash (.str ((addrOf key1).str toyHash)) = .ok (addrOf key1) by decide +kernel⟩

theorem spender_told : ∀ u ∈ [addrOf key1, nAddr], Answering (explorerOf beforeList) [u] beforeChain := by
  intro u hu
  simp only [List.mem_cons, List.not_mem_nil, or_false] at hu
  rcases hu with rfl | rfl <;> exact answers_of (by decide +kernel)

/-- All hypotheses of `C136_spendable_partial` hold: the wallet can pay 3.9 TFT to the second key. -/
example : ∃ t, ((spenderOn beforeList).coinsSend (.uh (addrOf key2)) (.str "3.9".toList) .none .none .none .none).posted = [t] := by
  obtain ⟨t, h, _⟩ := C136_spendable_partial (spenderOn beforeList) (explorerOf beforeList) [addrOf key1] beforeChain spender_informed (spender_told _ (by simp)) spender_keys
    (fun u hu => ⟨key1, by rw [List.mem_singleton.1 hu]; decide +kernel⟩) spender_primary (fun co h _ => before_ordinary co h) spender_balance [ownCoin] (by decide) (by decide)
    (fun co hco => by
      rw [List.mem_singleton.1 hco]
      exact ⟨own_unspent.1, rfl, ⟨addrOf key1, by simp, addrOf key1, rfl, rfl⟩, trivial⟩)
    (.uh (addrOf key2)) (.str "3.9".toList) (fun c h => by cases h) .none .none rfl (39 * 10 ^ 8) (.unlockHash (addrOf key2)) (by decide +kernel) (by show HashFits _; decide +kernel) [] rfl
    (by decide) (by decide +kernel)
  exact ⟨t, h⟩

theorem before_plain : PlainOwners beforeChain := by
  have hall : (beforeChain.txs.all fun t => (((t.tx.coinInputs.getD []).map CoinInput.parentOutput) ++ t.tx.coinOutputs).all fun o =>
      match o.condition.unwrap with
      | .multiSig os _ => decide (os.length ≤ 2 ^ 20) && os.all fun u => decide (u.type ∈ [1, 2, 3] ∧ u.hash.value.length = 32)
      | _ => true) = true := by decide +kernel
  intro t ht o ho os n e
  have hm : o ∈ ((t.tx.coinInputs.getD []).map CoinInput.parentOutput) ++ t.tx.coinOutputs := by
    rcases ho with ⟨ins, h1, ci, h2, rfl⟩ | h
    · exact List.mem_append_left _ (List.mem_map.2 ⟨ci, by rw [h1]; exact h2, rfl⟩)
    · exact List.mem_append_right _ h
  have := List.all_eq_true.1 (List.all_eq_true.1 hall t ht) o hm
  rw [e] at this
  simp only [Bool.and_eq_true, decide_eq_true_eq, List.all_eq_true] at this
  exact ⟨this.1, fun u hu => .inl (this.2 u hu)⟩

/-- All hypotheses of `C136_shared_partial` hold: the wallet can pay 1.5 TFT from the multi-signature address. -/
example : ∃ t, ((spenderOn beforeList).coinsSend (.uh (addrOf key2)) (.str "1.5".toList) (.one (.uh nAddr)) .none .none .none).posted = [t] := by
  obtain ⟨w, hw⟩ := spender_balance
  have hg : ∃ g, OwnHistory (explorerOf beforeList) [addrOf key1] g ∧ nAddr ∈ g.multisigs := by
    have : ((explorerOf beforeList).unlockhashGet (.str ((addrOf key1).str (explorerOf beforeList).H))).map (·.multisigs) = .ok [nAddr] := by decide +kernel
    cases h : (explorerOf beforeList).unlockhashGet (.str ((addrOf key1).str (explorerOf beforeList).H)) with
    | error e => rw [h] at this; cases this
    | ok g =>
      rw [h] at this
      have e : g.multisigs = [nAddr] := Except.ok.inj this
      exact ⟨g, ⟨addrOf key1, by simp, h⟩, by rw [e]; simp⟩
  have hat : AtAny toyHash [nAddr] sharedCoin := ⟨nAddr, by simp, nAddr, by decide +kernel, rfl⟩
  obtain ⟨t, h, _⟩ := C136_shared_partial (spenderOn beforeList) (explorerOf beforeList) [addrOf key1] beforeChain spender_informed spender_keys spender_primary
    (fun co h _ => before_ordinary co h) w hw nAddr hg (spender_told _ (by simp))
    before_plain
    (fun co h1 h2 => by
      have hm : co ∈ chainOutputs beforeChain := mem_chainOutputs.2 h1.1
      have hall : (chainOutputs beforeChain).all (fun co => decide (1 ≤ (heldKeys (spenderOn beforeList) [addrOf key1]).length)) = true := by decide +kernel
      have hk := of_decide_eq_true (List.all_eq_true.1 hall co hm)
      have hc : co.condition ∈ (chainOutputs beforeChain).map (fun co => co.condition) := List.mem_map.2 ⟨co, hm, rfl⟩
      rw [before_outputs] at hc
      simp only [List.mem_cons, List.not_mem_nil, or_false] at hc
      have hh : heldKeys (spenderOn beforeList) [addrOf key1] ≠ [] := by
        intro e; rw [e] at hk; exact absurd hk (by decide)
      rcases hc with e | e | e <;> rw [e]
      · exact hh
      · show (1 : Int) ≤ (heldKeys (spenderOn beforeList) [addrOf key1]).length; omega
      · exact hh)
    [sharedCoin] (by decide) (by decide)
    (fun co hco => by
      rw [List.mem_singleton.1 hco]
      exact ⟨own_unspent.2, rfl, hat, trivial⟩)
    (.uh (addrOf key2)) (.str "1.5".toList) (fun c h => by cases h) .none .none rfl (15 * 10 ^ 8) (.unlockHash (addrOf key2)) (by decide +kernel) (by show HashFits _; decide +kernel) [] rfl
    (by decide) (by decide +kernel)
  exact ⟨t, h⟩

end TF.Props
