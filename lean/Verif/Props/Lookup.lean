import Verif.Props.Client
import Verif.Props.Balance
/-! # C61, C62, C95: looking up outputs, transactions, blocks and addresses -/
namespace TF.Props
open TF TF.Spec

theorem keyErrorInvalid_ok {α : Type} {r : Res α} {a : α} (h : keyErrorInvalid r = .ok a) : r = .ok a := by
  unfold keyErrorInvalid at h
  split at h
  · cases h
  · exact h

theorem isStr_eq {j : Json} {s : Str} (h : j.isStr s = true) : j = .str s := by
  unfold Json.isStr at h
  split at h
  · simp only [decide_eq_true_eq] at h; rw [h]
  · cases h

theorem hash_str_inj {a b : Hash} (h : a.str = b.str) (hz : a.str ≠ List.replicate 64 '0') : a = b := by
  unfold Hash.str at h hz
  simp only at h hz
  split at h
  · rename_i ha; exact absurd (if_pos ha) hz
  · rename_i ha
    rw [if_neg ha] at hz
    split at h
    · exact absurd h hz
    · cases a; cases b; simp only [Hash.mk.injEq]; exact toHex_inj h

/-- The two transactions come from the answer. -/
theorem readOutputTxs_ok {L : IpLib} {H : Bytes → Bytes} {kind : OutputKind} {resp : Json} {c : ChainTx} {s : Option ChainTx}
    (h : readOutputTxs L H kind resp = .ok (c, s)) :
    ∃ l, resp.idx "hashtype" = .ok (.str kind.hashType) ∧ (∃ ts, resp.idx "transactions" = .ok ts ∧ ts.iter = .ok l) ∧
      (∃ e ∈ l, parseTx L H e = .ok c) ∧ ∀ s', s = some s' → ∃ e ∈ l, parseTx L H e = .ok s' := by
  unfold readOutputTxs at h
  obtain ⟨ht, h1, h⟩ := bind_ok h
  obtain ⟨_, h2, h⟩ := bind_ok h
  obtain ⟨ts, h3, h⟩ := bind_ok h
  obtain ⟨l, h4, h⟩ := bind_ok h
  obtain ⟨⟨ce, se⟩, h5, h⟩ := bind_ok h
  obtain ⟨c', h6, h⟩ := bind_ok h
  obtain ⟨s', h7, h⟩ := bind_ok h
  rw [isStr_eq (expect_ok h2)] at h1
  obtain ⟨e1, e2⟩ := Prod.mk.inj (Except.ok.inj h)
  subst e1; subst e2
  have hm : ce ∈ l ∧ ∀ x, se = some x → x ∈ l := by
    unfold splitTransactions at h5
    split at h5
    · cases h5; simp
    · obtain ⟨hb, _, h5⟩ := bind_ok h5
      obtain ⟨ha, _, h5⟩ := bind_ok h5
      obtain ⟨g, _, h5⟩ := bind_ok h5
      split at h5 <;> cases h5 <;> simp
    · cases h5
  refine ⟨l, h1, ⟨ts, h3, h4⟩, ⟨ce, hm.1, h6⟩, ?_⟩
  intro s2 hs
  subst hs
  cases se with
  | none => cases h7
  | some x =>
    obtain ⟨y, hy, h7⟩ := bind_ok h7
    cases h7
    exact ⟨x, hm.2 x rfl, hy⟩

/-- **C61** (partial: nothing is said about the spending transaction): a coin output returned by `coin_output_get` is one that the explorer lists
under the id asked for, in the transaction that is returned as the creating one; both transactions are in the explorer's answer. (An id of
zeros only, which no output has, is left out.) -/
theorem C61_coin_partial (C : Client) (v : BVal) (o : CoinOutput) (creation : ChainTx) (spend : Option ChainTx) (id : Hash)
    (hid : Hash.new v = .ok id) (hz : id.str ≠ List.replicate 64 '0') (h : C.coinOutputGet v = .ok (o, creation, spend)) :
    o.id = id ∧ o ∈ creation.tx.coinOutputs ∧ ∃ resp l e k, C.get ("/explorer/hashes/".toList ++ id.str) = .ok resp ∧
      Entries resp "coinoutputid" l ∧ e ∈ l ∧ parseTx C.L C.H e = .ok creation ∧ ListsCoin C.L C.H e k o ∧
      ∀ s, spend = some s → ∃ e' ∈ l, parseTx C.L C.H e' = .ok s := by
  unfold Client.coinOutputGet at h
  obtain ⟨i, hi, h⟩ := bind_ok h
  rw [hid] at hi; cases hi
  obtain ⟨resp, hr, h⟩ := bind_ok h
  obtain ⟨⟨c, s⟩, h1, h⟩ := bind_ok (keyErrorInvalid_ok h)
  obtain ⟨o', h2, h⟩ := bind_ok h
  cases h
  obtain ⟨l, ht, hts, ⟨e, hel, hpe⟩, hs⟩ := readOutputTxs_ok h1
  unfold findCoin at h2
  split at h2
  · rename_i x hx
    cases h2
    have hm := List.mem_of_find?_eq_some hx
    have hid' := List.find?_some hx
    simp only [decide_eq_true_eq] at hid'
    have hio : o.id = id := (hash_str_inj hid'.symm hz).symm
    have hw : ¬ IsWithdrawal creation.tx := by
      intro hw
      obtain ⟨y, hy, hy'⟩ := C94_withdrawal_false hpe hw
      rw [hy] at hm
      rw [List.mem_singleton.mp hm, hy'] at hio
      rw [← hio] at hz
      exact hz (by decide)
    obtain ⟨k, hk⟩ := List.getElem?_of_mem hm
    obtain ⟨_, _, _, hlist⟩ := C94_outputs_partial hpe hw
    exact ⟨hio, hm, resp, l, e, k, hr, ⟨ht, hts⟩, hel, hpe, hlist k o hk, hs⟩
  · cases h2

/-- **C61** for blockstake outputs (partial in the same way). -/
theorem C61_stake_partial (C : Client) (v : BVal) (o : StakeOutput) (creation : ChainTx) (spend : Option ChainTx) (id : Hash)
    (hid : Hash.new v = .ok id) (hz : id.str ≠ List.replicate 64 '0') (h : C.stakeOutputGet v = .ok (o, creation, spend)) :
    o.id = id ∧ o ∈ creation.tx.stakeOutputs ∧ ∃ resp l e k, C.get ("/explorer/hashes/".toList ++ id.str) = .ok resp ∧
      Entries resp "blockstakeoutputid" l ∧ e ∈ l ∧ parseTx C.L C.H e = .ok creation ∧ ListsStake C.L C.H e k o ∧
      ∀ s, spend = some s → ∃ e' ∈ l, parseTx C.L C.H e' = .ok s := by
  unfold Client.stakeOutputGet at h
  obtain ⟨i, hi, h⟩ := bind_ok h
  rw [hid] at hi; cases hi
  obtain ⟨resp, hr, h⟩ := bind_ok h
  obtain ⟨⟨c, s⟩, h1, h⟩ := bind_ok (keyErrorInvalid_ok h)
  obtain ⟨o', h2, h⟩ := bind_ok h
  cases h
  obtain ⟨l, ht, hts, ⟨e, hel, hpe⟩, hs⟩ := readOutputTxs_ok h1
  unfold findStake at h2
  split at h2
  · rename_i x hx
    cases h2
    have hm := List.mem_of_find?_eq_some hx
    have hid' := List.find?_some hx
    simp only [decide_eq_true_eq] at hid'
    obtain ⟨k, hk⟩ := List.getElem?_of_mem hm
    exact ⟨(hash_str_inj hid'.symm hz).symm, hm, resp, l, e, k, hr, ⟨ht, hts⟩, hel, hpe, C94_stakes hpe k o hk, hs⟩
  · cases h2

/-- **C61** is false for the coins of an ERC20 withdrawal: they are never found, whatever the explorer answers. -/
theorem C61_withdrawal_false (C : Client) (v : BVal) (id : Hash) (hid : Hash.new v = .ok id) (hz : id.str ≠ List.replicate 64 '0')
    (o : CoinOutput) (creation : ChainTx) (spend : Option ChainTx) (hw : IsWithdrawal creation.tx) :
    C.coinOutputGet v ≠ .ok (o, creation, spend) := by
  intro h
  obtain ⟨hio, hm, resp, l, e, k, _, _, _, hpe, _⟩ := C61_coin_partial C v o creation spend id hid hz h
  obtain ⟨y, hy, hy'⟩ := C94_withdrawal_false hpe hw
  rw [hy] at hm
  rw [List.mem_singleton.mp hm, hy'] at hio
  rw [← hio] at hz
  exact hz (by decide)

/-! ### Examples -/

/-- The explorer's entry for a standard transaction. -/
def entryOf (t : TxV1) (id : Hash) (parents : List CoinOutput) (outIds : List Hash) (height : Int) (unconfirmed : Bool) : Json :=
  .obj [("id", .str id.str), ("rawtransaction", .obj [("version", .int 1), ("data", .obj (t.jsonFields toyHash))]), ("height", .int height),
    ("coininputoutputs", .arr (parents.map (CoinOutput.json toyHash))), ("coinoutputids", .arr (outIds.map fun i => .str i.str)),
    ("unconfirmed", .bool unconfirmed)]

/-- A library that knows no IP address. -/
def noIp : IpLib := ⟨fun _ => none, fun _ => []⟩

/-- `coinA` with its amount as it is read from JSON (5 TFT = 5000000000 base units). -/
def coinA9 : CoinOutput := { coinA with value := ⟨some ⟨false, 5000000000, -9⟩⟩ }

/-- A transaction that creates `coinA`, one that spends it, and one that does not. -/
def createsA : TxV1 := { coinOutputs := [⟨coinA.value, coinA.condition, ⟨[]⟩⟩], minerFees := [⟨some ⟨false, 1, 0⟩⟩] }
@[inherit_doc createsA] def spendsA : TxV1 :=
  { coinInputs := [⟨coinA.id, .single key1 none, none⟩], coinOutputs := [⟨⟨some ⟨false, 4, 0⟩⟩, coinA.condition, ⟨[]⟩⟩], minerFees := [⟨some ⟨false, 1, 0⟩⟩] }
@[inherit_doc createsA] def spendsB : TxV1 :=
  { coinInputs := [⟨coinB.id, .single key1 none, none⟩], coinOutputs := [⟨⟨some ⟨false, 6, 0⟩⟩, coinA.condition, ⟨[]⟩⟩], minerFees := [⟨some ⟨false, 1, 0⟩⟩] }
/-- Entries for them. -/
def entryCreates (height : Int) : Json := entryOf createsA ⟨List.replicate 32 11⟩ [] [coinA.id] height false
@[inherit_doc entryCreates] def entrySpends (height : Int) (unconfirmed : Bool) : Json :=
  entryOf spendsA ⟨List.replicate 32 12⟩ [coinA] [⟨List.replicate 32 3⟩] height unconfirmed
@[inherit_doc entryCreates] def entrySpendsB (height : Int) : Json :=
  entryOf spendsB ⟨List.replicate 32 13⟩ [coinB] [⟨List.replicate 32 4⟩] height false

/-- A client whose explorer gives the same answer to every question. -/
def saying (type : String) (entries : List Json) (more : List (String × Json) := []) : Client :=
  ⟨noIp, toyHash, fun _ => .ok (.obj ([("hashtype", .str type.toList), ("transactions", .arr entries)] ++ more))⟩

/-- Without the transactions. -/
def brief (r : Res (CoinOutput × ChainTx × Option ChainTx)) : Res (CoinOutput × Hash × Option Hash) :=
  r.map fun x => (x.1, x.2.1.id, x.2.2.map ChainTx.id)

example : brief ((saying "coinoutputid" [entryCreates 5, entrySpends 7 false]).coinOutputGet (.str coinA.id.str)) =
    .ok (coinA9, ⟨List.replicate 32 11⟩, some ⟨List.replicate 32 12⟩) := by decide +kernel
example : Hash.new (.str coinA.id.str) = .ok coinA.id ∧ coinA.id.str ≠ List.replicate 64 '0' := by decide +kernel

/-- The hypothesis of the C94 theorems is met by an entry with an input and an output. -/
example : (parseTx noIp toyHash (entrySpends 7 false)).map (fun t => (t.tx.coinInputs.map fun l => l.map CoinInput.parent,
    t.tx.coinOutputs.map CoinOutput.id, t.unconfirmed, t.height)) = .ok (some [some coinA9], [⟨List.replicate 32 3⟩], false, 7) := by decide +kernel

/-- **C61** is false for the spending transaction: `coin_output_get` returns as the spending transaction of an output whichever other
transaction the answer contains. -/
theorem C61_spend_false : ∃ (C : Client) (o : CoinOutput) (creation s : ChainTx), C.coinOutputGet (.str coinA.id.str) = .ok (o, creation, some s) ∧ o = coinA9 ∧ ¬ Spends s.tx coinA9.id := by
  have key : ((saying "coinoutputid" [entryCreates 5, entrySpendsB 7]).coinOutputGet (.str coinA.id.str)).map
      (fun x => (x.1, x.2.2.map fun s => (s.tx.coinInputs.getD []).map CoinInput.parentId)) = .ok (coinA9, some [coinB.id]) := by decide +kernel
  cases h : (saying "coinoutputid" [entryCreates 5, entrySpendsB 7]).coinOutputGet (.str coinA.id.str) with
  | error e => rw [h] at key; cases key
  | ok x =>
    obtain ⟨o, c, s⟩ := x
    rw [h] at key
    simp only [Except.map, Except.ok.injEq, Prod.mk.injEq] at key
    obtain ⟨rfl, k2⟩ := key
    cases s with
    | none => cases k2
    | some s =>
      refine ⟨_, _, c, s, h, rfl, ?_⟩
      rintro ⟨ins, hi, ci, hc, hp⟩
      simp only [Option.map_some, Option.some.injEq] at k2
      rw [hi] at k2
      have hm := List.mem_map_of_mem (f := CoinInput.parentId) hc
      rw [show (some ins).getD [] = ins from rfl] at k2
      rw [k2, hp] at hm
      exact absurd hm (by decide)

/-- **C61** is false for an output that is spent in the block that creates it, or by a transaction that is not confirmed yet (which is reported
at height 0): the lookup fails although the explorer lists the output, unless the spending transaction happens to be listed first. -/
theorem C61_same_block_false :
    (saying "coinoutputid" [entryCreates 5, entrySpends 5 false]).coinOutputGet (.str coinA.id.str) = .error .explorerInvalidResponse ∧
    brief ((saying "coinoutputid" [entrySpends 5 false, entryCreates 5]).coinOutputGet (.str coinA.id.str)) =
      .ok (coinA9, ⟨List.replicate 32 11⟩, some ⟨List.replicate 32 12⟩) ∧
    (saying "coinoutputid" [entryCreates 5, entrySpends 0 true]).coinOutputGet (.str coinA.id.str) = .error .explorerInvalidResponse := by
  refine ⟨?_, ?_, ?_⟩ <;> decide +kernel

/-- An ERC20 withdrawal as the explorer gives it, with the id of the created coins. -/
def entryWithdrawal (value : Currency) (outId : Hash) (height : Int) : Json :=
  .obj [("id", .str (Hash.str ⟨List.replicate 32 14⟩)), ("rawtransaction", .obj [("version", .int 209),
    ("data", .obj (TxV209.jsonFields toyHash ⟨addrOf key1, value, some ⟨some ⟨false, 1, 0⟩⟩, List.replicate 32 1, List.replicate 32 2⟩))]),
    ("height", .int height), ("coinoutputids", .arr [.str outId.str])]

example : (saying "coinoutputid" [entryWithdrawal coinA.value coinA.id 5]).coinOutputGet (.str coinA.id.str) = .error .explorerInvalidResponse ∧
    ((parseTx noIp toyHash (entryWithdrawal coinA.value coinA.id 5)).map fun t => t.tx.coinOutputs) =
      .ok [⟨coinA9.value, coinA.condition, ⟨[]⟩⟩] := by decide +kernel

/-! ## C95: answers fit the question -/

/-- A hash read from the text of another one is that one (the hash of zeros only aside). -/
theorem hash_of_str {id h : Hash} (hz : id.str ≠ List.replicate 64 '0') (hn : Hash.new (.str id.str) = .ok h) : h = id := by
  have hf := (hash_new_str hn).1
  have hs : id.str = toHex id.value := by
    unfold Hash.str at hz ⊢
    simp only at hz ⊢
    split
    · rename_i h0; rw [if_pos h0] at hz; exact absurd rfl hz
    · rfl
  rw [hs, fromHex_toHex] at hf
  cases h; cases id
  simp only [Option.some.injEq] at hf
  rw [hf]

/-- **C95**: a transaction returned by `transaction_get` has the id asked for. -/
theorem C95_transaction (C : Client) (v : BVal) (t : ChainTx) (id : Hash) (hid : Hash.new v = .ok id) (hz : id.str ≠ List.replicate 64 '0')
    (h : C.transactionGet v = .ok t) : t.id = id := by
  unfold Client.transactionGet at h
  obtain ⟨i, hi, h⟩ := bind_ok h
  rw [hid] at hi; cases hi
  obtain ⟨resp, _, h⟩ := bind_ok h
  have h := keyErrorInvalid_ok h
  unfold readTransaction at h
  obtain ⟨_, _, h⟩ := bind_ok h
  obtain ⟨_, _, h⟩ := bind_ok h
  obtain ⟨e, _, h⟩ := bind_ok h
  obtain ⟨j, h4, h⟩ := bind_ok h
  obtain ⟨_, h5, h⟩ := bind_ok h
  obtain ⟨p⟩ := parseTx_ok h
  obtain ⟨j', hj, hn⟩ := p.hid
  rw [h4] at hj; cases hj
  rw [isStr_eq (expect_ok h5)] at hn
  exact hash_of_str hz hn

/-- **C95**: a block returned by `block_get` for an id has that id. -/
theorem C95_block (C : Client) (v : BVal) (b : Block) (id : Hash) (hid : Hash.new v = .ok id) (hz : id.str ≠ List.replicate 64 '0')
    (h : C.blockGet (.id v) = .ok b) : b.id = id := by
  unfold Client.blockGet at h
  have h := keyErrorInvalid_ok h
  simp only at h
  obtain ⟨i, hi, h⟩ := bind_ok h
  rw [hid] at hi; cases hi
  obtain ⟨resp, _, h⟩ := bind_ok h
  unfold readBlockById at h
  obtain ⟨_, _, h⟩ := bind_ok h
  obtain ⟨_, _, h⟩ := bind_ok h
  obtain ⟨e, _, h⟩ := bind_ok h
  obtain ⟨j, h4, h⟩ := bind_ok h
  obtain ⟨_, h5, h⟩ := bind_ok h
  have hj := isStr_eq (expect_ok h5)
  unfold readBlock at h
  obtain ⟨_, _, h⟩ := bind_ok h
  obtain ⟨_, _, h⟩ := bind_ok h
  obtain ⟨_, _, h⟩ := bind_ok h
  obtain ⟨_, _, h⟩ := bind_ok h
  obtain ⟨_, _, h⟩ := bind_ok h
  obtain ⟨_, _, h⟩ := bind_ok h
  obtain ⟨_, _, h⟩ := bind_ok h
  obtain ⟨_, _, h⟩ := bind_ok h
  obtain ⟨_, _, h⟩ := bind_ok h
  obtain ⟨_, _, h⟩ := bind_ok h
  obtain ⟨_, _, h⟩ := bind_ok h
  obtain ⟨_, _, h⟩ := bind_ok h
  obtain ⟨_, _, h⟩ := bind_ok h
  obtain ⟨_, _, h⟩ := bind_ok h
  obtain ⟨j', hj', h⟩ := bind_ok h
  obtain ⟨bid, hb, h⟩ := bind_ok h
  cases h
  rw [h4] at hj'
  cases hj'
  rw [hj] at hb
  have hne : id.str ≠ [] := by
    intro h0
    unfold Hash.str at h0
    simp only at h0
    split at h0
    · cases h0
    · rename_i h1; exact h1 h0
  unfold hashOfJson Hash.fromJson at hb
  simp only [if_neg hne] at hb
  exact hash_of_str hz hb

/-- A block of height 7 as the explorer gives it. -/
def blockEntry : Json :=
  .obj [("blockid", .str (Hash.str ⟨List.replicate 32 21⟩)), ("height", .int 7), ("transactions", .arr [entryCreates 7]),
    ("minerpayoutids", .arr [.str (Hash.str ⟨List.replicate 32 22⟩)]),
    ("rawblock", .obj [("parentid", .str (Hash.str ⟨List.replicate 32 20⟩)), ("timestamp", .int 1500000000),
      ("minerpayouts", .arr [.obj [("value", .str "10".toList), ("unlockhash", .str ((addrOf key1).str toyHash))]])])]

example : ((saying "transactionid" [] [("transaction", entryCreates 5)]).transactionGet (.str (Hash.str ⟨List.replicate 32 11⟩))).map
    (fun t => (t.id, t.unconfirmed, t.height, t.tx.coinOutputs)) = .ok (⟨List.replicate 32 11⟩, false, 5, [coinA9]) := by decide +kernel
example : ((saying "blockid" [] [("block", blockEntry)]).blockGet (.id (.str (Hash.str ⟨List.replicate 32 21⟩)))).map
    (fun b => (b.id, b.parent, b.height, b.time, b.txs.length)) =
    .ok (⟨List.replicate 32 21⟩, ⟨List.replicate 32 20⟩, 7, 1500000000, 1) := by decide +kernel
example : ((saying "blockid" [] [("block", blockEntry)]).blockGet (.id (.str (Hash.str ⟨List.replicate 32 21⟩)))).map
    (fun b => b.payouts) = .ok [⟨⟨List.replicate 32 22⟩, ⟨some ⟨false, 10, -9⟩⟩, addrOf key1⟩] := by decide +kernel

/-- **C95** is false for a block asked for by height: the height of the block in the answer is not looked at. -/
theorem C95_height_false : ∃ C b, Client.blockGet C (.height 5) = .ok b ∧ b.height = 7 := by
  have key : ((saying "blockid" [] [("block", blockEntry)]).blockGet (.height 5)).map Block.height = .ok 7 := by decide +kernel
  cases h : (saying "blockid" [] [("block", blockEntry)]).blockGet (.height 5) with
  | error e => rw [h] at key; cases key
  | ok b => rw [h] at key; exact ⟨_, b, h, by simpa [Except.map] using key⟩

/-- The answer about a 3Bot with id 3. -/
def botEntry : Json :=
  .obj [("record", .obj [("id", .int 3), ("names", .arr [.str "thisis.another".toList]), ("publickey", .str key1.str), ("expiration", .int 1600000000)])]

/-- **C95** is false for 3Bots: `record_get` returns whatever record the answer contains. -/
theorem C95_record_false : ∃ (C : Client) (r1 r2 r3 : BotRecord), C.recordGet (.int 1) = .ok r1 ∧ r1.id ≠ 1 ∧
    C.recordGet (.name ⟨"name.of.bot".toList⟩) = .ok r2 ∧ (⟨"name.of.bot".toList⟩ : BotName) ∉ r2.names ∧
    C.recordGet (.key key2) = .ok r3 ∧ r3.key ≠ key2 := by
  let r : BotRecord := ⟨3, [⟨"thisis.another".toList⟩], [], key1, 1600000000⟩
  refine ⟨⟨noIp, toyHash, fun _ => .ok botEntry⟩, r, r, r, ?_, ?_, ?_, ?_, ?_, ?_⟩ <;> decide +kernel

end TF.Props
