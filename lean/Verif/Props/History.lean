import Verif.Props.Lookup
import Verif.Spec.History
import Verif.Lemmas.Balance
import Verif.Props.Fund
/-! # C62, C63: the history of an address, and the balance computed from it -/
namespace TF.Props
open TF TF.Spec

/-! ## C62 -/

theorem mapM_get'' {α β : Type} {f : α → Res β} {l : List α} {l' : List β} (h : l.mapM f = .ok l') :
    l'.length = l.length ∧ ∀ (k : Nat) y, l'[k]? = some y → ∃ x, l[k]? = some x ∧ f x = .ok y :=
  ⟨(mapM_get h).1, fun k y => mapM_get' h k y⟩

/-- What `unlockhash_get` does with the answer. -/
theorem readHistory_ok {L : IpLib} {H : Bytes → Bytes} {a : Str} {resp : Json} {h : History} (hh : readHistory L H a resp = .ok h) :
    ∃ l parsed, Entries resp "unlockhash" l ∧ l.mapM (parseTx L H) = .ok parsed ∧ h.txs = sortTxs parsed ∧ Names H a h.address ∧
      (∀ u ∈ h.multisigs, u.type = 3) ∧ ∃ ms, resp.listField "multisigaddresses" = .ok ms ∧ ms.mapM (UnlockHash.fromJson H) = .ok h.multisigs := by
  unfold readHistory at hh
  obtain ⟨ht, h1, hh⟩ := bind_ok hh
  obtain ⟨_, h2, hh⟩ := bind_ok hh
  obtain ⟨ts, h3, hh⟩ := bind_ok hh
  obtain ⟨l, h4, hh⟩ := bind_ok hh
  obtain ⟨parsed, h5, hh⟩ := bind_ok hh
  obtain ⟨msj, h6, hh⟩ := bind_ok hh
  obtain ⟨ms, h7, hh⟩ := bind_ok hh
  obtain ⟨_, h8, hh⟩ := bind_ok hh
  obtain ⟨info, h9, hh⟩ := bind_ok hh
  obtain ⟨u, h10, hh⟩ := bind_ok hh
  cases hh
  rw [isStr_eq (expect_ok h2)] at h1
  refine ⟨l, parsed, ⟨h1, ts, h3, h4⟩, h5, rfl, h10, ?_, msj, h6, h7⟩
  have := expect_ok h8
  simpa using this

theorem sortTxs_perm (l : List ChainTx) : (sortTxs l).Perm l := stableSort_perm _ _

/-- Every transaction of a history was read from an entry. -/
theorem history_parsed {L : IpLib} {H : Bytes → Bytes} {a : Str} {resp : Json} {h : History} (hh : readHistory L H a resp = .ok h) :
    ∀ t ∈ h.txs, ∃ e, parseTx L H e = .ok t := by
  obtain ⟨l, parsed, _, h2, h3, _⟩ := readHistory_ok hh
  intro t ht
  rw [h3] at ht
  obtain ⟨k, hk⟩ := List.getElem?_of_mem ((sortTxs_perm parsed).mem_iff.1 ht)
  obtain ⟨e, _, he⟩ := (mapM_get'' h2).2 k t hk
  exact ⟨e, he⟩

theorem unlockhashGet_ok {C : Client} {target : Recipient} {h : History} (hh : C.unlockhashGet target = .ok h) :
    ∃ c u resp, fromRecipient C.H target .none = .ok c ∧ c.unlockhash C.H = .ok u ∧ C.get ("/explorer/hashes/".toList ++ u.str C.H) = .ok resp ∧
      readHistory C.L C.H (u.str C.H) resp = .ok h := by
  unfold Client.unlockhashGet at hh
  obtain ⟨c, h1, hh⟩ := bind_ok hh
  obtain ⟨u, h2, hh⟩ := bind_ok hh
  obtain ⟨resp, h3, hh⟩ := bind_ok hh
  exact ⟨c, u, resp, h1, h2, h3, keyErrorInvalid_ok hh⟩

theorem newest_of_key {a b : ChainTx} (ca : (a.unconfirmed = true ↔ a.height = -1) ∧ (a.unconfirmed = false ↔ 0 ≤ a.height))
    (cb : (b.unconfirmed = true ↔ b.height = -1) ∧ (b.unconfirmed = false ↔ 0 ≤ b.height)) (sa : a.height < 2 ^ 63 - 1)
    (hab : b.key ≤ a.key) : a.unconfirmed = true ∨ b.unconfirmed = false ∧ b.height ≤ a.height := by
  unfold ChainTx.key maxSize at hab
  cases hua : a.unconfirmed with
  | true => exact .inl rfl
  | false =>
    have a0 := ca.2.1 hua
    right
    cases hub : b.unconfirmed with
    | true =>
      have b0 := cb.1.1 hub
      rw [if_pos (by omega), if_neg (by omega)] at hab
      omega
    | false =>
      have b0 := cb.2.1 hub
      rw [if_neg (by omega), if_neg (by omega)] at hab
      exact ⟨rfl, hab⟩

/-- **C62**: the history returned by `unlockhash_get` consists of the explorer's entries about the address asked for, each of them once, with
unconfirmed transactions first and then by decreasing height (as long as heights are below 2^63 - 1); and the addresses returned as
multi-signature addresses are such, in the order of the answer. -/
theorem C62_history (C : Client) (target : Recipient) (h : History) (hh : C.unlockhashGet target = .ok h)
    (hs : ∀ t ∈ h.txs, t.height < 2 ^ 63 - 1) :
    ∃ c u resp l parsed, fromRecipient C.H target .none = .ok c ∧ c.unlockhash C.H = .ok u ∧
      C.get ("/explorer/hashes/".toList ++ u.str C.H) = .ok resp ∧ Entries resp "unlockhash" l ∧ Names C.H (u.str C.H) h.address ∧
      parsed.length = l.length ∧ (∀ (k : Nat) t, parsed[k]? = some t → ∃ e, l[k]? = some e ∧ parseTx C.L C.H e = .ok t) ∧
      h.txs.Perm parsed ∧ NewestFirst h.txs ∧ (∀ v ∈ h.multisigs, v.type = 3) ∧
      ∃ ms, resp.listField "multisigaddresses" = .ok ms ∧ ms.mapM (UnlockHash.fromJson C.H) = .ok h.multisigs := by
  obtain ⟨c, u, resp, h1, h2, h3, h4⟩ := unlockhashGet_ok hh
  obtain ⟨l, parsed, h5, h6, h7, h8, h9, h10⟩ := readHistory_ok h4
  have hm := mapM_get'' h6
  refine ⟨c, u, resp, l, parsed, h1, h2, h3, h5, h8, hm.1, hm.2, ?_, ?_, h9, h10⟩
  · rw [h7]; exact sortTxs_perm _
  have hsort : h.txs.Pairwise fun a b => decide (b.key ≤ a.key) = true := by
    rw [h7]
    refine stableSort_sorted (le := fun a b : ChainTx => decide (b.key ≤ a.key)) ?_ ?_ parsed
    · intro a b c h1 h2
      simp only [decide_eq_true_eq] at h1 h2 ⊢; omega
    · intro a b
      simp only [Bool.or_eq_true, decide_eq_true_eq]; omega
  unfold NewestFirst
  refine hsort.imp_of_mem ?_
  intro a b ha hb hab
  obtain ⟨ea, pa⟩ := history_parsed h4 a ha
  obtain ⟨eb, pb⟩ := history_parsed h4 b hb
  exact newest_of_key (C94_confirmed pa) (C94_confirmed pb) (hs a ha) (of_decide_eq_true hab)

/-- A client whose explorer knows this history of the first key's address. -/
def knows (entries : List Json) (more : List (String × Json) := []) : Client := saying "unlockhash" entries more

example : ((knows [entryCreates 5, entrySpends 0 true, entrySpendsB 7]).unlockhashGet (.str ((addrOf key1).str toyHash))).map
    (fun h => (h.address, h.txs.map fun t => (t.id, t.height))) =
    .ok (addrOf key1, [(⟨List.replicate 32 12⟩, -1), (⟨List.replicate 32 13⟩, 7), (⟨List.replicate 32 11⟩, 5)]) := by decide +kernel

/-! ## C63 -/

/-- The reports made to a balance about an output, if it belongs to the address. -/
def repIf (H : Bytes → Bytes) (a : Str) (c s : Bool) (o : CoinOutput) : List BalEvent :=
  match o.condition.unlockhash H with
  | .ok u => if u.str H = a then [.report o c s] else []
  | .error _ => []

theorem mem_repIf {H : Bytes → Bytes} {a : Str} {c s : Bool} {o : CoinOutput} {e : BalEvent} :
    e ∈ repIf H a c s o ↔ e = .report o c s ∧ AtAddress H a o := by
  unfold repIf AtAddress
  cases h : o.condition.unlockhash H with
  | error e => simp
  | ok u =>
    simp only
    split <;> simp_all

/-- The reports about one transaction, and about a history. -/
def txReports (H : Bytes → Bytes) (a : Str) (t : ChainTx) : List BalEvent :=
  ((t.tx.coinInputs.getD []).map CoinInput.parentOutput).flatMap (repIf H a (!t.unconfirmed) true) ++
    t.tx.coinOutputs.flatMap (repIf H a (!t.unconfirmed) false)

theorem foldlM_run {α : Type} {H : Bytes → Bytes} {f : Balance → α → Res Balance} {evs : α → List BalEvent}
    (hf : ∀ b x b', f b x = .ok b' → b' = (evs x).foldl (balStep H) b) (l : List α) :
    ∀ b b', l.foldlM f b = .ok b' → b' = (l.flatMap evs).foldl (balStep H) b := by
  induction l with
  | nil => intro b b' h; cases h; rfl
  | cons x l ih =>
    intro b b' h
    rw [List.foldlM_cons] at h
    obtain ⟨b1, h1, h⟩ := bind_ok h
    rw [List.flatMap_cons, List.foldl_append, ← hf _ _ _ h1]
    exact ih _ _ h

theorem addIfOf_run {H : Bytes → Bytes} {a : Str} {c s : Bool} {b : Balance} {o : CoinOutput} {b' : Balance}
    (h : Balance.addIfOf H a c s b o = .ok b') : b' = (repIf H a c s o).foldl (balStep H) b := by
  unfold Balance.addIfOf at h
  obtain ⟨u, hu, h⟩ := bind_ok h
  unfold repIf
  rw [hu]
  split at h
  · rename_i hs
    unfold Balance.addOrRaise at h
    simp only [hs, if_true, List.foldl_cons, List.foldl_nil, balStep]
    split at h
    · rename_i b1 hb; cases h; rw [hb]
    · cases h
  · rename_i hs
    cases h
    simp [hs]

theorem addTx_run {H : Bytes → Bytes} {a : Str} {b b' : Balance} {t : ChainTx} (h : Balance.addTx H a b t = .ok b') :
    b' = (txReports H a t).foldl (balStep H) b := by
  unfold Balance.addTx at h
  obtain ⟨ins, h1, h⟩ := bind_ok h
  obtain ⟨b1, h2, h⟩ := bind_ok h
  unfold txReports
  rw [List.foldl_append, inputsList_ok h1, show (some ins).getD [] = ins from rfl,
    ← foldlM_run (H := H) (evs := repIf H a (!t.unconfirmed) true) (fun _ _ _ => addIfOf_run) _ _ _ h2]
  exact foldlM_run (H := H) (evs := repIf H a (!t.unconfirmed) false) (fun _ _ _ => addIfOf_run) _ _ _ h

theorem personal_run {H : Bytes → Bytes} {a : Str} {txs : List ChainTx} {b : Balance} (h : personalBalance H a txs = .ok b) :
    b = balRun H (txs.flatMap (txReports H a)) :=
  foldlM_run (H := H) (evs := txReports H a) (fun _ _ _ => addTx_run) _ _ _ h

/-! ### What a balance holds after coherent reports -/

theorem OutMap.put_mem (m : OutMap) (k : Hash) (v : CoinOutput) : (k, v) ∈ m.put k v := by
  unfold OutMap.put
  split
  · rename_i h
    obtain ⟨p, hp, hk⟩ := OutMap.has_iff.1 h
    refine List.mem_map.2 ⟨p, hp, ?_⟩
    rw [if_pos hk, hk]
  · simp

theorem OutMap.put_other {m : OutMap} {k : Hash} {v : CoinOutput} {p : Hash × CoinOutput} (h : p ∈ m) (hp : p.1 ≠ k) : p ∈ m.put k v := by
  unfold OutMap.put
  split
  · exact List.mem_map.2 ⟨p, h, by rw [if_neg hp]⟩
  · exact List.mem_append_left _ h

theorem values_put {m : OutMap} (hf : Filed m) {o co : CoinOutput} : co ∈ (m.put o.id o).values ↔ co ∈ m.values ∧ co.id ≠ o.id ∨ co = o := by
  unfold OutMap.values
  constructor
  · intro h
    obtain ⟨p, hp, rfl⟩ := List.mem_map.1 h
    rcases OutMap.mem_put hp with ⟨hp, hk⟩ | rfl
    · exact .inl ⟨List.mem_map.2 ⟨p, hp, rfl⟩, by rw [← hf p hp]; exact hk⟩
    · exact .inr rfl
  · rintro (⟨h, hk⟩ | rfl)
    · obtain ⟨p, hp, rfl⟩ := List.mem_map.1 h
      exact List.mem_map.2 ⟨p, OutMap.put_other hp (by rw [hf p hp]; exact hk), rfl⟩
    · exact List.mem_map.2 ⟨_, OutMap.put_mem m co.id co, rfl⟩

theorem values_pop {m : OutMap} (hf : Filed m) {k : Hash} {co : CoinOutput} : co ∈ (m.pop k).values ↔ co ∈ m.values ∧ co.id ≠ k := by
  unfold OutMap.values
  constructor
  · intro h
    obtain ⟨p, hp, rfl⟩ := List.mem_map.1 h
    obtain ⟨hp, hk⟩ := OutMap.mem_pop hp
    exact ⟨List.mem_map.2 ⟨p, hp, rfl⟩, by rw [← hf p hp]; exact hk⟩
  · rintro ⟨h, hk⟩
    obtain ⟨p, hp, rfl⟩ := List.mem_map.1 h
    refine List.mem_map.2 ⟨p, ?_, rfl⟩
    simp only [OutMap.pop, List.mem_filter, decide_eq_true_eq, ne_eq]
    exact ⟨hp, by rw [hf p hp]; exact hk⟩

/-- An id stands for one output, with one confirmation status. -/
def OneEach (es : List BalEvent) : Prop :=
  (∀ e ∈ es, ∃ o c s, e = .report o c s) ∧
  ∀ o c o' c', .report o c false ∈ es → .report o' c' false ∈ es → o.id = o'.id → o = o' ∧ c = c'

/-- What a balance holds. -/
structure Holds (b : Balance) (es : List BalEvent) : Prop where
  inv : BalInv b
  outs : ∀ co, co ∈ b.outputs.values ↔ .report co true false ∈ es ∧ ¬ ReportedSpent es co.id
  unconf : ∀ co, co ∈ b.unconf.values ↔ .report co false false ∈ es ∧ ¬ ReportedSpent es co.id
  spent : ∀ k, KnownSpent b k ↔ ReportedSpent es k

theorem OneEach.init {es : List BalEvent} {e : BalEvent} (h : OneEach (es ++ [e])) : OneEach es :=
  ⟨fun x hx => h.1 x (List.mem_append_left _ hx), fun o c o' c' h1 h2 => h.2 o c o' c' (List.mem_append_left _ h1) (List.mem_append_left _ h2)⟩

theorem reportedSpent_snoc {es : List BalEvent} {o : CoinOutput} {c s : Bool} {k : Hash} :
    ReportedSpent (es ++ [.report o c s]) k ↔ ReportedSpent es k ∨ (s = true ∧ o.id = k) := by
  unfold ReportedSpent
  constructor
  · rintro ⟨o', c', h, hk⟩
    rcases List.mem_append.1 h with h | h
    · exact .inl ⟨o', c', h, hk⟩
    · simp only [List.mem_singleton, BalEvent.report.injEq] at h
      obtain ⟨rfl, rfl, rfl⟩ := h
      exact .inr ⟨rfl, hk⟩
  · rintro (⟨o', c', h, hk⟩ | ⟨rfl, hk⟩)
    · exact ⟨o', c', List.mem_append_left _ h, hk⟩
    · exact ⟨o, c, by simp, hk⟩

theorem holds_step {es : List BalEvent} {b : Balance} {o : CoinOutput} {c s : Bool} (h1 : OneEach (es ++ [.report o c s])) (hb : Holds b es) :
    Holds (b.record o c s) (es ++ [.report o c s]) := by
  have hinv := record_inv hb.inv o c s
  obtain ⟨⟨fo, fs, fu, fus, no, nu, out⟩, houts, hunc, hsp⟩ := hb
  have uniq : s = false → ∀ o' c', .report o' c' false ∈ es → o'.id = o.id → o' = o ∧ c' = c := by
    intro hs o' c' hm hid
    exact h1.2 o' c' o c (List.mem_append_left _ hm) (by simp [hs]) hid
  have mem_snoc : ∀ co c', .report co c' false ∈ es ++ [BalEvent.report o c s] ↔ .report co c' false ∈ es ∨ (co = o ∧ c' = c ∧ s = false) := by
    intro co c'
    simp only [List.mem_append, List.mem_singleton, BalEvent.report.injEq]
    constructor
    · rintro (h | ⟨h, h', h''⟩)
      · exact .inl h
      · exact .inr ⟨h, h', h''.symm⟩
    · rintro (h | ⟨h, h', h''⟩)
      · exact .inl h
      · exact .inr ⟨h, h', h''.symm⟩
  have hkn : ∀ k, (k ∈ b.spent.map (·.1) ∨ k ∈ b.unconfSpent.map (·.1)) ↔ ReportedSpent es k := hsp
  have no_out : ReportedSpent es o.id → ∀ co, co.id = o.id → co ∉ b.outputs.values ∧ co ∉ b.unconf.values := by
    intro hr co hid
    rw [houts, hunc, hid]
    exact ⟨fun h => h.2 hr, fun h => h.2 hr⟩
  have hs1 : ∀ k, b.spent.has k = true ↔ k ∈ b.spent.map (·.1) := fun k => OutMap.has_keys
  have hs2 : ∀ k, b.unconfSpent.has k = true ↔ k ∈ b.unconfSpent.map (·.1) := fun k => OutMap.has_keys
  refine ⟨hinv, ?_, ?_, ?_⟩
  · intro co
    rw [mem_snoc, reportedSpent_snoc]
    have := hkn o.id
    have := no_out
    have := uniq
    have := hs1 o.id
    have := hs2 o.id
    have := houts co
    have := hunc co
    unfold Balance.record
    cases c <;> cases s
    all_goals simp only [if_true, if_false, Bool.false_eq_true]
    all_goals (repeat' split)
    all_goals try simp only [values_put fo, values_pop fo]
    all_goals clear hinv h1 mem_snoc hsp hs1 hs2 fo fs fu fus no nu out
    all_goals grind
  · intro co
    rw [mem_snoc, reportedSpent_snoc]
    have := hkn o.id
    have := no_out
    have := uniq
    have := hs1 o.id
    have := hs2 o.id
    have := houts co
    have := hunc co
    unfold Balance.record
    cases c <;> cases s
    all_goals simp only [if_true, if_false, Bool.false_eq_true]
    all_goals (repeat' split)
    all_goals try simp only [values_put fu, values_pop fu]
    all_goals clear hinv h1 mem_snoc hsp hs1 hs2 fo fs fu fus no nu out
    all_goals grind
  · intro k
    rw [reportedSpent_snoc]
    have := hkn o.id
    have := hkn k
    have := hs1 o.id
    have := hs2 o.id
    unfold KnownSpent Balance.record
    cases c <;> cases s
    all_goals simp only [if_true, if_false, Bool.false_eq_true]
    all_goals (repeat' split)
    all_goals try simp only [OutMap.mem_put_keys, OutMap.mem_pop_keys]
    all_goals clear hinv h1 mem_snoc hsp hs1 hs2 fo fs fu fus no nu out houts hunc no_out uniq
    all_goals grind

theorem Holds.addr {b : Balance} {es : List BalEvent} (h : Holds b es) (a : List Str) : Holds { b with addresses := a } es :=
  ⟨h.inv.addr a, h.outs, h.unconf, h.spent⟩

theorem holds_run (H : Bytes → Bytes) (es : List BalEvent) (h : OneEach es) : Holds (balRun H es) es := by
  induction es using List.reverseRecOn with
  | nil =>
    refine ⟨balInv_new, ?_, ?_, ?_⟩ <;> intro x
    · simp [balRun, OutMap.values]
    · simp [balRun, OutMap.values]
    · simp [balRun, KnownSpent, ReportedSpent]
  | append_singleton es e ih =>
    obtain ⟨o, c, s, rfl⟩ := h.1 e (by simp)
    have hr : balRun H (es ++ [.report o c s]) = ((balRun H es).outputAdd H o c s).1 := by
      unfold balRun; rw [List.foldl_append]; rfl
    obtain ⟨a, ha⟩ := outputAdd_eq H (balRun H es) o c s
    rw [hr, ha]
    exact (holds_step h (ih h.init)).addr a

theorem mem_txReports {H : Bytes → Bytes} {a : Str} {t : ChainTx} {o : CoinOutput} {c s : Bool} :
    .report o c s ∈ txReports H a t ↔ c = !t.unconfirmed ∧ AtAddress H a o ∧
      ((s = true ∧ o ∈ (t.tx.coinInputs.getD []).map CoinInput.parentOutput) ∨ (s = false ∧ o ∈ t.tx.coinOutputs)) := by
  unfold txReports
  simp only [List.mem_append, List.mem_flatMap, mem_repIf, BalEvent.report.injEq]
  constructor
  · rintro (⟨o', ho, ⟨rfl, rfl, rfl⟩, hat⟩ | ⟨o', ho, ⟨rfl, rfl, rfl⟩, hat⟩)
    · exact ⟨rfl, hat, .inl ⟨rfl, ho⟩⟩
    · exact ⟨rfl, hat, .inr ⟨rfl, ho⟩⟩
  · rintro ⟨rfl, hat, (⟨rfl, ho⟩ | ⟨rfl, ho⟩)⟩
    · exact .inl ⟨o, ho, ⟨rfl, rfl, rfl⟩, hat⟩
    · exact .inr ⟨o, ho, ⟨rfl, rfl, rfl⟩, hat⟩

theorem created_iff {H : Bytes → Bytes} {a : Str} {txs : List ChainTx} {co : CoinOutput} {c : Bool} :
    .report co c false ∈ txs.flatMap (txReports H a) ↔ CreatedIn H a txs co c := by
  unfold CreatedIn
  simp only [List.mem_flatMap, mem_txReports]
  constructor
  · rintro ⟨t, ht, rfl, hat, (⟨h, _⟩ | ⟨_, ho⟩)⟩
    · cases h
    · exact ⟨t, ht, by simp, ho, hat⟩
  · rintro ⟨t, ht, hu, ho, hat⟩
    exact ⟨t, ht, by simp [hu], hat, .inr ⟨trivial, ho⟩⟩

/-- Every input knows the output it spends. -/
def Annotated (txs : List ChainTx) : Prop :=
  ∀ t ∈ txs, ∀ ins, t.tx.coinInputs = some ins → ∀ ci ∈ ins, ci.parentOutput.id = ci.parentId

theorem spent_iff {H : Bytes → Bytes} {a : Str} {txs : List ChainTx} (hc : Coherent H a txs) (ha : Annotated txs) {co : CoinOutput} {c : Bool}
    (hco : CreatedIn H a txs co c) : ReportedSpent (txs.flatMap (txReports H a)) co.id ↔ SpentInHistory txs co.id := by
  unfold ReportedSpent SpentInHistory Spends
  simp only [List.mem_flatMap, mem_txReports]
  constructor
  · rintro ⟨o, c', ⟨t, ht, _, hat, (⟨_, ho⟩ | ⟨h, _⟩)⟩, hid⟩
    · cases hi : t.tx.coinInputs with
      | none => rw [hi] at ho; simp at ho
      | some ins =>
        rw [hi] at ho
        obtain ⟨ci, hci, rfl⟩ := List.mem_map.1 ho
        exact ⟨t, ht, ins, hi, ci, hci, by rw [← ha t ht ins hi ci hci]; exact hid⟩
    · cases h
  · rintro ⟨t, ht, ins, hi, ci, hci, hid⟩
    refine ⟨ci.parentOutput, !t.unconfirmed, ⟨t, ht, rfl, hc.parents t ht ins hi ci hci co c hco hid, .inl ⟨trivial, ?_⟩⟩, ?_⟩
    · rw [hi]; exact List.mem_map.2 ⟨ci, hci, rfl⟩
    · rw [ha t ht ins hi ci hci]; exact hid

theorem oneEach_reports {H : Bytes → Bytes} {a : Str} {txs : List ChainTx} (hc : Coherent H a txs) : OneEach (txs.flatMap (txReports H a)) := by
  constructor
  · intro e he
    simp only [List.mem_flatMap] at he
    obtain ⟨t, _, he⟩ := he
    cases e with
    | report o c s => exact ⟨o, c, s, rfl⟩
    | chain t h =>
      unfold txReports at he
      simp [mem_repIf] at he
  · intro o c o' c' h1 h2 hid
    exact hc.ids o c o' c' (created_iff.1 h1) (created_iff.1 h2) hid

theorem balanceOf_run {H : Bytes → Bytes} {a : Str} {txs : List ChainTx} (hc : Coherent H a txs) (ha : Annotated txs) :
    BalanceOf H a txs (balRun H (txs.flatMap (txReports H a))) := by
  obtain ⟨inv, ho, hu, _⟩ := holds_run H _ (oneEach_reports hc)
  have h1 : ∀ co, co ∈ (balRun H (txs.flatMap (txReports H a))).outputs.values ↔ CreatedIn H a txs co true ∧ ¬ SpentInHistory txs co.id := by
    intro co
    rw [ho, created_iff]
    constructor
    · rintro ⟨x, y⟩; exact ⟨x, by rwa [spent_iff hc ha x] at y⟩
    · rintro ⟨x, y⟩; exact ⟨x, by rwa [spent_iff hc ha x]⟩
  have h2 : ∀ co, co ∈ (balRun H (txs.flatMap (txReports H a))).unconf.values ↔ CreatedIn H a txs co false ∧ ¬ SpentInHistory txs co.id := by
    intro co
    rw [hu, created_iff]
    constructor
    · rintro ⟨x, y⟩; exact ⟨x, by rwa [spent_iff hc ha x] at y⟩
    · rintro ⟨x, y⟩; exact ⟨x, by rwa [spent_iff hc ha x]⟩
  refine ⟨h1, h2, ?_⟩
  unfold counted
  rw [List.map_append, inv.fo.values, inv.fu.values, List.nodup_append]
  refine ⟨inv.no, inv.nu, ?_⟩
  intro x hx y hy hxy
  subst hxy
  rw [← inv.fo.values] at hx
  rw [← inv.fu.values] at hy
  obtain ⟨co, hco, rfl⟩ := List.mem_map.1 hx
  obtain ⟨co', hco', hid⟩ := List.mem_map.1 hy
  have := (hc.ids _ _ _ _ ((h1 co).1 hco).1 ((h2 co').1 hco').1 hid.symm).2
  cases this

theorem history_annotated {L : IpLib} {H : Bytes → Bytes} {a : Str} {resp : Json} {h : History} (hh : readHistory L H a resp = .ok h) :
    Annotated h.txs := by
  intro t ht ins hi ci hci
  obtain ⟨e, he⟩ := history_parsed hh t ht
  obtain ⟨_, _, ins', _, _, h3, _, h4⟩ := C94_inputs he
  rw [hi] at h3; cases h3
  obtain ⟨k, hk⟩ := List.getElem?_of_mem hci
  obtain ⟨_, _, _, _, o, _, _, _, _, _, _, _, hp⟩ := h4 k ci hk
  unfold CoinInput.parentOutput
  rw [hp]; rfl

theorem balanceOf_chain {H : Bytes → Bytes} {a : Str} {txs : List ChainTx} {b : Balance} (h : BalanceOf H a txs b) (i : ChainInfo) :
    BalanceOf H a txs (b.withChain i) := ⟨h.confirmed, h.unconfirmed, h.once⟩

/-- **C63** for an address that is no multi-signature address (partial: the history has to be coherent; see `C63_withdrawal_false`): the balance
computed from a history read by `unlockhash_get` holds exactly the outputs of the address that were created and not spent in it. -/
theorem C63_personal_partial (C : Client) (target : Recipient) (h : History) (hg : C.unlockhashGet target = .ok h) (ht : h.address.type ≠ 3)
    (hc : Coherent C.H (h.address.str C.H) h.txs) (info : ChainInfo) (b : AnyBalance) (hb : h.balance C.H info = .ok b) :
    ∃ w, b = .wallet w ∧ BalanceOf C.H (h.address.str C.H) h.txs w ∧ KnowsChain w info := by
  obtain ⟨c, u, resp, _, _, _, h4⟩ := unlockhashGet_ok hg
  unfold History.balance at hb
  rw [if_neg ht] at hb
  obtain ⟨w, hw, hb⟩ := bind_ok hb
  cases hb
  refine ⟨_, rfl, balanceOf_chain ?_ _, rfl, rfl, rfl⟩
  rw [personal_run hw]
  exact balanceOf_run hc (history_annotated h4)

/-! ### Multi-signature addresses -/

/-- The balance, if there is one, is the one after these reports; without reports there is none. -/
def MultiRun (H : Bytes → Bytes) (es : List BalEvent) : Option MultiBalance → Prop
  | none => es = []
  | some m => m.base = balRun H es

theorem foldlM_multi {α : Type} {H : Bytes → Bytes} {f : Option MultiBalance → α → Res (Option MultiBalance)} {evs : α → List BalEvent}
    (hf : ∀ es b x b', MultiRun H es b → f b x = .ok b' → MultiRun H (es ++ evs x) b') (l : List α) :
    ∀ es b b', MultiRun H es b → l.foldlM f b = .ok b' → MultiRun H (es ++ l.flatMap evs) b' := by
  induction l with
  | nil => intro es b b' hr h; cases h; simpa using hr
  | cons x l ih =>
    intro es b b' hr h
    rw [List.foldlM_cons] at h
    obtain ⟨b1, h1, h⟩ := bind_ok h
    rw [List.flatMap_cons, ← List.append_assoc]
    exact ih _ _ _ (hf _ _ _ _ hr h1) h

theorem multiNew_base {owners : List UnlockHash} {n : Int} {m : MultiBalance} (h : MultiBalance.new owners n = .ok m) : m.base = {} := by
  unfold MultiBalance.new at h
  split at h
  · cases h
  · split at h
    · cases h
    · cases h; rfl

theorem multiAddIfOf_run {H : Bytes → Bytes} {a : Str} {c s : Bool} {es : List BalEvent} {b : Option MultiBalance} {o : CoinOutput}
    {b' : Option MultiBalance} (hr : MultiRun H es b) (h : multiAddIfOf H a c s b o = .ok b') : MultiRun H (es ++ repIf H a c s o) b' := by
  unfold multiAddIfOf at h
  obtain ⟨u, hu, h⟩ := bind_ok h
  unfold repIf
  rw [hu]
  split at h
  · rename_i hs
    split at h
    · rename_i owners n _
      simp only [hs, if_true]
      have key : ∀ m : MultiBalance, m.base = balRun H es → (do
          let x ← m.base.addOrRaise H o c s
          pure (some { m with base := x }) : Res (Option MultiBalance)) = .ok b' → MultiRun H (es ++ [.report o c s]) b' := by
        intro m hm h
        obtain ⟨x, hx, h⟩ := bind_ok h
        cases h
        unfold Balance.addOrRaise at hx
        split at hx
        · rename_i b1 hb1
          cases hx
          unfold MultiRun
          simp only
          unfold balRun
          rw [List.foldl_append]
          simp only [List.foldl_cons, List.foldl_nil, balStep]
          rw [show es.foldl (balStep H) {} = balRun H es from rfl, ← hm, hb1]
        · cases hx
      cases b with
      | some m => exact key m hr h
      | none =>
        obtain ⟨m, hm, h⟩ := bind_ok h
        exact key m (by rw [multiNew_base hm, show es = [] from hr]; rfl) h
    · cases h
  · rename_i hs
    cases h
    simpa [hs] using hr

theorem multiAddTx_run {H : Bytes → Bytes} {a : Str} {es : List BalEvent} {b b' : Option MultiBalance} {t : ChainTx} (hd : ¬ IsMintDefinition t.tx)
    (hr : MultiRun H es b) (h : multiAddTx H a b t = .ok b') : MultiRun H (es ++ txReports H a t) b' := by
  unfold multiAddTx at h
  obtain ⟨ins, h1, h⟩ := bind_ok h
  obtain ⟨b1, h2, h⟩ := bind_ok h
  obtain ⟨b2, h3, h⟩ := bind_ok h
  have hb : b' = b2 := by
    unfold multiMint at h
    split at h
    · rename_i v hv; rw [hv] at hd; exact absurd trivial hd
    · cases h; rfl
  subst hb
  unfold txReports
  rw [inputsList_ok h1, show (some ins).getD [] = ins from rfl, ← List.append_assoc]
  exact foldlM_multi (H := H) (evs := repIf H a (!t.unconfirmed) false) (fun _ _ _ _ => multiAddIfOf_run) _ _ _ _
    (foldlM_multi (H := H) (evs := repIf H a (!t.unconfirmed) true) (fun _ _ _ _ => multiAddIfOf_run) _ _ _ _ hr h2) h3

theorem multi_run {H : Bytes → Bytes} {a : Str} (txs : List ChainTx) (hd : ∀ t ∈ txs, ¬ IsMintDefinition t.tx) :
    ∀ es b b', MultiRun H es b → txs.foldlM (multiAddTx H a) b = .ok b' → MultiRun H (es ++ txs.flatMap (txReports H a)) b' := by
  induction txs with
  | nil => intro es b b' hr h; cases h; simpa using hr
  | cons t txs ih =>
    intro es b b' hr h
    rw [List.foldlM_cons] at h
    obtain ⟨b1, h1, h⟩ := bind_ok h
    rw [List.flatMap_cons, ← List.append_assoc]
    exact ih (fun x hx => hd x (List.mem_cons_of_mem _ hx)) _ _ _ (multiAddTx_run (hd t List.mem_cons_self) hr h1) h

/-- The outputs of a balance of any kind that is no collection of balances. -/
def baseOf : AnyBalance → Option Balance
  | .wallet b => some b
  | .multi m => some m.base
  | .wallets _ => none

/-- **C63** for a multi-signature address (partial: the history has to be coherent and to contain no transaction that sets the mint condition;
see `C63_mint_false`). -/
theorem C63_multi_partial (C : Client) (target : Recipient) (h : History) (hg : C.unlockhashGet target = .ok h) (ht : h.address.type = 3)
    (hc : Coherent C.H (h.address.str C.H) h.txs) (hd : ∀ t ∈ h.txs, ¬ IsMintDefinition t.tx) (info : ChainInfo) (b : AnyBalance)
    (hb : h.balance C.H info = .ok b) :
    ∃ w, baseOf b = some w ∧ BalanceOf C.H (h.address.str C.H) h.txs w ∧ KnowsChain w info := by
  obtain ⟨c, u, resp, _, _, _, h4⟩ := unlockhashGet_ok hg
  unfold History.balance at hb
  rw [if_pos ht] at hb
  obtain ⟨m, hm, hb⟩ := bind_ok hb
  have hr := multi_run (H := C.H) (a := h.address.str C.H) h.txs hd [] none m rfl hm
  rw [List.nil_append] at hr
  have hbal := balanceOf_run (H := C.H) hc (history_annotated h4)
  cases m with
  | none =>
    cases hb
    refine ⟨_, rfl, balanceOf_chain ?_ _, rfl, rfl, rfl⟩
    rw [show h.txs.flatMap (txReports C.H (h.address.str C.H)) = [] from hr] at hbal
    exact hbal
  | some m =>
    cases hb
    refine ⟨_, rfl, balanceOf_chain ?_ _, rfl, rfl, rfl⟩
    rw [show m.base = _ from hr]
    exact hbal

/-! ### Examples -/

/-- The outputs a history creates at an address, with their confirmation status. -/
def createdList (H : Bytes → Bytes) (a : Str) (txs : List ChainTx) : List (CoinOutput × Bool) :=
  txs.flatMap fun t => (t.tx.coinOutputs.filter fun o => match o.condition.unlockhash H with
    | .ok u => u.str H = a
    | .error _ => false).map fun o => (o, !t.unconfirmed)

theorem atAddress_check {H : Bytes → Bytes} {a : Str} {o : CoinOutput} :
    (match o.condition.unlockhash H with | .ok u => decide (u.str H = a) | .error _ => false) = true ↔ AtAddress H a o := by
  unfold AtAddress
  cases o.condition.unlockhash H <;> simp

theorem mem_createdList {H : Bytes → Bytes} {a : Str} {txs : List ChainTx} {co : CoinOutput} {c : Bool} :
    (co, c) ∈ createdList H a txs ↔ CreatedIn H a txs co c := by
  unfold createdList CreatedIn
  simp only [List.mem_flatMap, List.mem_map, List.mem_filter, Prod.mk.injEq, atAddress_check]
  constructor
  · rintro ⟨t, ht, o, ⟨ho, hat⟩, rfl, rfl⟩
    exact ⟨t, ht, by simp, ho, hat⟩
  · rintro ⟨t, ht, hu, ho, hat⟩
    exact ⟨t, ht, co, ⟨ho, hat⟩, rfl, by simp [hu]⟩

/-- A check of coherence. -/
def coherentCheck (H : Bytes → Bytes) (a : Str) (txs : List ChainTx) : Bool :=
  ((createdList H a txs).all fun p => (createdList H a txs).all fun q => p.1.id ≠ q.1.id || p = q) &&
  txs.all fun t => (t.tx.coinInputs.getD []).all fun ci => (createdList H a txs).all fun p => ci.parentId ≠ p.1.id ||
    match ci.parentOutput.condition.unlockhash H with | .ok u => decide (u.str H = a) | .error _ => false

theorem coherent_of_check {H : Bytes → Bytes} {a : Str} {txs : List ChainTx} (h : coherentCheck H a txs = true) : Coherent H a txs := by
  unfold coherentCheck at h
  rw [Bool.and_eq_true] at h
  constructor
  · intro co c co' c' h1 h2 hid
    have := List.all_eq_true.1 (List.all_eq_true.1 h.1 _ (mem_createdList.2 h1)) _ (mem_createdList.2 h2)
    simpa [hid] using this
  · intro t ht ins hi ci hci co c hco hid
    have := List.all_eq_true.1 (List.all_eq_true.1 (List.all_eq_true.1 h.2 t ht) ci (by rw [hi]; exact hci)) _ (mem_createdList.2 hco)
    rw [← atAddress_check]
    simpa [hid] using this

/-- The chain at height 100. -/
def infoDemo : ChainInfo := ⟨100, 1550000000, ⟨List.replicate 32 9⟩⟩

/-- What a history gives: the confirmed outputs, the unconfirmed outputs. -/
def balanceShown (H : Bytes → Bytes) (r : Res History) : Res (Option (List (Hash × Currency) × List (Hash × Currency))) := do
  let h ← r
  let b ← h.balance H infoDemo
  return (baseOf b).map fun w => (w.outputs.values.map fun o => (o.id, o.value), w.unconf.values.map fun o => (o.id, o.value))

example : balanceShown toyHash ((knows [entryCreates 5, entrySpends 7 false]).unlockhashGet (.str ((addrOf key1).str toyHash))) =
    .ok (some ([(⟨List.replicate 32 3⟩, ⟨some ⟨false, 4000000000, -9⟩⟩)], [])) := by decide +kernel
example : balanceShown toyHash ((knows [entryCreates 5, entrySpends 7 true, entrySpendsB 7]).unlockhashGet (.str ((addrOf key1).str toyHash))) =
    .ok (some ([(⟨List.replicate 32 4⟩, ⟨some ⟨false, 6000000000, -9⟩⟩)], [(⟨List.replicate 32 3⟩, ⟨some ⟨false, 4000000000, -9⟩⟩)])) := by decide +kernel
/-- The hypotheses of `C63_personal_partial` are met. -/
example : ((knows [entryCreates 5, entrySpends 7 false]).unlockhashGet (.str ((addrOf key1).str toyHash))).map
    (fun h => (h.address.type, coherentCheck toyHash (h.address.str toyHash) h.txs)) = .ok (1, true) := by decide +kernel

/-- A transaction that creates `coinM`. -/
def createsM : TxV1 := { coinOutputs := [⟨coinM.value, coinM.condition, ⟨[]⟩⟩], minerFees := [⟨some ⟨false, 1, 0⟩⟩] }
/-- Entry for it. -/
def entryCreatesM (height : Int) : Json := entryOf createsM ⟨List.replicate 32 15⟩ [] [coinM.id] height false

example : balanceShown toyHash ((knows [entryCreatesM 5]).unlockhashGet (.str (msAddr.str toyHash))) =
    .ok (some ([(coinM.id, ⟨some ⟨false, 3000000000, -9⟩⟩)], [])) := by decide +kernel
/-- The hypotheses of `C63_multi_partial` are met. -/
example : ((knows [entryCreatesM 5]).unlockhashGet (.str (msAddr.str toyHash))).map
    (fun h => (h.address.type, coherentCheck toyHash (h.address.str toyHash) h.txs)) = .ok (3, true) := by decide +kernel

/-! ### Where the balance is wrong -/

/-- The withdrawal of `entryWithdrawal`, as it is read. -/
def withdrawal (n : Nat) : TxV209 :=
  ⟨addrOf key1, ⟨some ⟨false, n, -9⟩⟩, some ⟨some ⟨false, 1000000000, -9⟩⟩, List.replicate 32 1, List.replicate 32 2⟩

/-- The history with two withdrawals. -/
def twoWithdrawals : History :=
  ⟨addrOf key1, [⟨.v209 (withdrawal 6000000000), ⟨List.replicate 32 14⟩, false, 6⟩, ⟨.v209 (withdrawal 5000000000), ⟨List.replicate 32 14⟩, false, 5⟩], [], none⟩

/-- **C63** is false for ERC20 withdrawals: of two withdrawals (5 and 6 TFT, different output ids in the explorer's answer) only one is counted. -/
theorem C63_withdrawal_false :
    (knows [entryWithdrawal ⟨some ⟨false, 5, 0⟩⟩ coinA.id 5, entryWithdrawal ⟨some ⟨false, 6, 0⟩⟩ coinB.id 6]).unlockhashGet (.str ((addrOf key1).str toyHash)) =
      .ok twoWithdrawals ∧
    (∃ o1 o2, o1.value ≠ o2.value ∧ CreatedIn toyHash ((addrOf key1).str toyHash) twoWithdrawals.txs o1 true ∧
      CreatedIn toyHash ((addrOf key1).str toyHash) twoWithdrawals.txs o2 true) ∧
    (∀ id, ¬ SpentInHistory twoWithdrawals.txs id) ∧
    ∃ w o, twoWithdrawals.balance toyHash infoDemo = .ok (.wallet w) ∧ counted w = [o] := by
  refine ⟨by decide +kernel, ⟨⟨⟨some ⟨false, 6000000000, -9⟩⟩, .unlockHash (addrOf key1), ⟨[]⟩⟩, ⟨⟨some ⟨false, 5000000000, -9⟩⟩, .unlockHash (addrOf key1), ⟨[]⟩⟩,
    by decide, mem_createdList.1 (by decide +kernel), mem_createdList.1 (by decide +kernel)⟩, ?_, ?_⟩
  · rintro id ⟨t, ht, ins, hi, ci, hci, _⟩
    simp only [twoWithdrawals, List.mem_cons, List.not_mem_nil, or_false] at ht
    rcases ht with rfl | rfl
    all_goals
      simp only [Tx.coinInputs, Option.some.injEq] at hi
      subst hi
      cases hci
  · have key : (twoWithdrawals.balance toyHash infoDemo).map (fun b => (baseOf b).map fun w => (counted w).length) = .ok (some 1) := by decide +kernel
    cases h : twoWithdrawals.balance toyHash infoDemo with
    | error e => rw [h] at key; cases key
    | ok b =>
      rw [h] at key
      unfold History.balance at h
      rw [if_neg (by decide)] at h
      obtain ⟨w, _, h⟩ := bind_ok h
      cases h
      simp only [Except.map, baseOf, Option.map_some, Except.ok.injEq, Option.some.injEq] at key
      obtain ⟨o, ho⟩ := List.length_eq_one_iff.1 key
      exact ⟨_, o, rfl, ho⟩

/-- **C63** is false for spent ERC20 withdrawals: the withdrawn coins stay in the balance after they have been spent. -/
theorem C63_withdrawal_spent_false :
    balanceShown toyHash ((knows [entryWithdrawal coinA.value coinA.id 5, entrySpends 7 false]).unlockhashGet (.str ((addrOf key1).str toyHash))) =
      .ok (some ([(⟨List.replicate 32 3⟩, ⟨some ⟨false, 4000000000, -9⟩⟩), (⟨[]⟩, ⟨some ⟨false, 5000000000, -9⟩⟩)], [])) := by decide +kernel

/-- The definition of a mint condition, as an explorer gives it. -/
def entryMint (c : Condition) (height : Int) : Json :=
  .obj [("id", .str (Hash.str ⟨List.replicate 32 16⟩)), ("rawtransaction", .obj [("version", .int 128),
    ("data", .obj (TxV128.jsonFields toyHash ⟨List.replicate 8 1, none, c, [⟨some ⟨false, 1, 0⟩⟩], [], none⟩))]), ("height", .int height)]

/-- **C63** is false for the address of a mint condition: what was received after the condition was set is not in the balance, which is empty; and a
condition without several owners makes the balance unavailable. -/
theorem C63_mint_false :
    balanceShown toyHash ((knows [entryMint coinM.condition 3, entryCreatesM 5]).unlockhashGet (.str (msAddr.str toyHash))) = .ok (some ([], [])) ∧
    balanceShown toyHash ((knows [entryMint coinA.condition 3, entryCreatesM 5]).unlockhashGet (.str (msAddr.str toyHash))) = .error .attributeError := by
  constructor <;> decide +kernel

/-- **C63** is false for a multi-signature address to which somebody sent coins by giving the address instead of its owners: the balance of everything
else at the address can no longer be computed. -/
theorem C63_plain_output_false :
    balanceShown toyHash ((knows [entryCreatesM 5, entryOf { createsM with coinOutputs := [⟨coinM.value, .unlockHash msAddr, ⟨[]⟩⟩] }
      ⟨List.replicate 32 17⟩ [] [coinA.id] 6 false]).unlockhashGet (.str (msAddr.str toyHash))) = .error .typeError := by decide +kernel

end TF.Props
