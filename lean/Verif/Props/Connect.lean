import Verif.Spec.Connect
import Verif.Spec.Confirmed
import Verif.Props.Explorer
import Verif.Props.Confirmed
import Verif.Props.TxBuild
/-! # C105, C106: submitting with the explorer client, and networks -/
namespace TF.Props
open TF TF.Spec

/-! ## C105 -/

theorem post_error {dumps : Json → Str} {ask : Str → Bytes → Reply} {data : PostData} {e : Err} (hd : data.encode dumps = .error e)
    (order : List Address) : (explorerPost dumps ask data order).1 = [] ∧ ∃ e', (explorerPost dumps ask data order).2 = .error e' := by
  match order with
  | [] => exact ⟨rfl, _, rfl⟩
  | none :: _ => exact ⟨rfl, _, rfl⟩
  | some a :: l => rw [explorerPost]; simp only [hd]; exact ⟨trivial, _, rfl⟩

/-- **C105** (finding). No transaction object ever reaches an explorer: whatever the transaction and whatever the explorers would do,
`transaction_put` sends nothing to anybody and raises (`TypeError`, if the transaction has a JSON form and the first address is a text), as the
version in the object that is to be dumped as JSON is no JSON value. -/
theorem C105_submit_false (P : Poster) (t : Tx) :
    (P.put (.tx t)).1 = [] ∧ (∃ e, (P.put (.tx t)).2 = .error e) ∧
    ∀ j a rest, t.json P.L P.H = .ok j → P.order = some a :: rest → (P.put (.tx t)).2 = .error .typeError := by
  unfold Poster.put
  cases hj : t.json P.L P.H with
  | error e =>
    simp only [PutArg.toData, hj, bind, Except.bind]
    exact ⟨trivial, ⟨e, rfl⟩, by simp⟩
  | ok j =>
    have hs := C72_json_dumps_false P.L P.H t j hj
    have he : (PostData.dict j).encode P.dumps = .error .typeError := by simp [PostData.encode, hs]
    simp only [PutArg.toData, hj, bind, Except.bind, pure, Except.pure]
    obtain ⟨h1, e, h2⟩ := post_error (ask := fun addr => P.ask (addr ++ poolEndpoint)) he P.order
    refine ⟨h1, ⟨e, by rw [h2]⟩, ?_⟩
    intro j' a rest _ ho
    rw [ho, explorerPost]
    simp [he]

theorem at_eq (a : Str) : submissionsAt a = a ++ poolEndpoint := rfl

/-- The ids the explorers give. -/
theorem readPosted_iff {resp : Json} {id : Hash} (hn : NamesTransaction resp id) : readPosted resp = .ok id := by
  unfold readPosted
  rw [hn.1]
  simp only [bind, Except.bind, Json.bval]
  have := C12_hash_text_roundtrip_partial id hn.2
  have h2 : Hash.new (.str id.str) = .ok id := by
    unfold Hash.fromJson at this
    split at this
    · rename_i h0
      have := hash_str_length (h := id) (.inr hn.2); rw [h0] at this; cases this
    · exact this
  rw [h2]; rfl

/-- **C105** (finding). So with the explorer client of the library no wallet operation submits anything: it hands nothing to the network, or it
raises. (Payments; the same follows for all others from C104.) -/
theorem C105_payments_false (W : World) (P : Poster) (hW : ∀ t, W.put t = (P.put (.tx t)).2) (r : Recipient) (amt : CVal) (src : Source) (refund : Recipient)
    (lock : LockVal) (data : DataArg) (h : (W.coinsSend r amt src refund lock data).posted ≠ []) :
    ∃ e, (W.coinsSend r amt src refund lock data).result = .error e := by
  rcases (C104_payments W src refund data).1 r amt lock with h0 | ⟨t, h1, h2⟩
  · exact absurd h0 h
  · cases hr : (W.coinsSend r amt src refund lock data).result with
    | error e => exact ⟨e, rfl⟩
    | ok a =>
      obtain ⟨id, hid⟩ := h2 a hr
      obtain ⟨_, ⟨e, he⟩, _⟩ := C105_submit_false P t
      rw [hW, he] at hid; cases hid

/-- **C105** (what holds). A transaction given as its JSON (text, bytes, or a dict of JSON values) is sent, as those bytes, to one explorer after
the other until one is reachable, and that explorer's name for it is returned, exactly when it answers so. -/
theorem C105_submit_partial (P : Poster) (order : List Str) (ho : P.order = order.map some) (x : PostData) (d : Bytes) (hd : x.encode P.dumps = .ok d) :
    (∀ before a line resp id, Reached P d order before a line → P.loads line = .ok resp → NamesTransaction resp id →
      P.put (.data x) = (before ++ [a], .ok id)) ∧
    ∀ sent id, P.put (.data x) = (sent, .ok id) → ∃ before a line resp, Reached P d order before a line ∧ P.loads line = .ok resp ∧ sent = before ++ [a] ∧
      ∃ v, resp.idx "transactionid" = .ok v ∧ Hash.new v.bval = .ok id := by
  simp only [Reached, at_eq]
  constructor
  · rintro before a line resp id ⟨after, rfl, hb, ha⟩ hl hn
    simp only [Poster.put, PutArg.toData, ho, List.map_append, List.map_cons]
    rw [post_first (ask := fun addr => P.ask (addr ++ poolEndpoint)) hd hb (by simp only [ha]; simp)]
    have h1 : explorerPost P.dumps (fun addr => P.ask (addr ++ poolEndpoint)) x [some a] = ([a], .ok line) := by
      rw [explorerPost]
      simp only [hd, ha]
      rfl
    rw [h1]
    simp only [bind, Except.bind, hl, readPosted_iff hn]
  · intro sent id h
    simp only [Poster.put, PutArg.toData, ho] at h
    obtain ⟨h1, h2⟩ := Prod.mk.inj h
    have hu : ¬ ∀ y ∈ order, P.ask (y ++ poolEndpoint) d = .unreachable := by
      intro hu
      have := post_unreachable (ask := fun addr => P.ask (addr ++ poolEndpoint)) hd hu
      rw [this] at h2; cases h2
    obtain ⟨before, a, after, rfl, hb, ha⟩ : ∃ before a after, order = before ++ a :: after ∧
        (∀ y ∈ before, P.ask (y ++ poolEndpoint) d = .unreachable) ∧ P.ask (a ++ poolEndpoint) d ≠ .unreachable := by
      clear h h1 h2 ho
      induction order with
      | nil => exact absurd (by simp) hu
      | cons y l ih =>
        by_cases hy : P.ask (y ++ poolEndpoint) d = .unreachable
        · obtain ⟨before, a, after, rfl, h1, h2⟩ := ih fun h => hu (List.forall_mem_cons.mpr ⟨hy, h⟩)
          exact ⟨y :: before, a, after, rfl, List.forall_mem_cons.mpr ⟨hy, h1⟩, h2⟩
        · exact ⟨[], y, l, rfl, by simp, hy⟩
    simp only [List.map_append, List.map_cons] at h1 h2
    rw [post_first (ask := fun addr => P.ask (addr ++ poolEndpoint)) hd hb ha] at h1 h2
    rw [explorerPost] at h1 h2
    simp only [hd] at h1 h2
    cases hr : P.ask (a ++ poolEndpoint) d with
    | unreachable => exact absurd hr ha
    | badUrl => simp only [hr] at h2; cases h2
    | refused c b => simp only [hr] at h2; cases h2
    | answer code line =>
      simp only [hr] at h1 h2
      by_cases hc : okCodes.contains code = true
      · simp only [hc, not_true, if_false] at h1 h2
        by_cases h0 : code = 200
        · subst h0
          simp only [if_true] at h1 h2
          simp only [bind, Except.bind] at h2
          cases hl : P.loads line with
          | error e => rw [hl] at h2; cases h2
          | ok resp =>
            simp only [hl] at h2
            refine ⟨before, a, line, resp, ⟨after, rfl, hb, hr⟩, hl, h1.symm, ?_⟩
            unfold readPosted at h2
            cases hv : resp.idx "transactionid" with
            | error e => simp only [hv, bind, Except.bind] at h2; cases e <;> cases h2
            | ok v =>
              simp only [hv, bind, Except.bind] at h2
              refine ⟨v, rfl, ?_⟩
              cases hh : Hash.new v.bval with
              | error e => simp only [hh] at h2; cases e <;> cases h2
              | ok i => simp only [hh] at h2; exact h2
        · simp only [h0, if_false] at h2; cases h2
      · simp only [hc, not_false_eq_true, if_true] at h2; cases h2

/-- Two explorers, the first of them down. -/
def posterDemo : Poster where
  L := ⟨fun _ => none, fun b => toHex b⟩
  H := toyHash
  dumps := fun _ => []
  loads := fun _ => .ok (.obj [("transactionid", .str (toHex (List.replicate 32 7)))])
  ask := fun url _ => if url = "https://b/transactionpool/transactions".toList then .answer 200 [] else .unreachable
  order := [some "https://a".toList, some "https://b".toList]

example : posterDemo.put (.data (.str "{}".toList)) = (["https://a".toList, "https://b".toList], .ok ⟨List.replicate 32 7⟩) := by decide +kernel
example : posterDemo.put (.tx (.v1 {})) = ([], .error .typeError) := by decide +kernel
example : Reached posterDemo [123, 125] ["https://a".toList, "https://b".toList] ["https://a".toList] "https://b".toList [] :=
  ⟨[], rfl, by decide +kernel, by decide +kernel⟩
example : NamesTransaction (.obj [("transactionid", .str (toHex (List.replicate 32 7)))]) ⟨List.replicate 32 7⟩ := ⟨rfl, rfl⟩
example : (PostData.str "{}".toList).encode posterDemo.dumps = .ok [123, 125] := by decide +kernel
example : ∀ t, ({ demoWorld with put := fun t => (posterDemo.put (.tx t)).2 } : World).put t = (posterDemo.put (.tx t)).2 := fun _ => rfl

/-! ## C106 -/

theorem fromStr_iff (s : Str) (n : NetworkType) : NetworkType.fromStr s = some n ↔ NamesNetwork s n := by
  have hn : ∀ m : NetworkType, n = m ↔ n.value = m.value := by intro m; cases n; cases m; simp
  unfold NetworkType.fromStr NamesNetwork SameLetters lowerStr
  simp only
  generalize s.map Char.toLower = l
  by_cases h1 : l = "standard".toList ∨ l = "std".toList
  · rw [if_pos h1]
    have ht : l ≠ "testnet".toList := by rcases h1 with rfl | rfl <;> decide
    have hd : l ≠ "devnet".toList := by rcases h1 with rfl | rfl <;> decide
    simp only [Option.some.injEq, ht, hd, and_false, or_false, h1, and_true]
    rw [eq_comm, hn]; rfl
  · rw [if_neg h1]
    simp only [h1, and_false, false_or]
    by_cases h2 : l = "testnet".toList
    · rw [if_pos h2]
      have hd : l ≠ "devnet".toList := by subst h2; decide
      simp only [Option.some.injEq, h2, and_true, hd.symm]
      subst h2
      simp only [hd, and_false, or_false]
      rw [eq_comm, hn]; rfl
    · rw [if_neg h2]
      simp only [h2, and_false, false_or]
      by_cases h3 : l = "devnet".toList
      · rw [if_pos h3]
        simp only [Option.some.injEq, h3, and_true]
        rw [eq_comm, hn]; rfl
      · rw [if_neg h3]; simp only [h3, and_false]; exact ⟨fun h => (by cases h), False.elim⟩

/-- **C106** (partial: for texts that do name a network). A client is for the network it is asked for, given as text in small or capital letters or
as network type; without a request, for the standard network, or for that of the given explorers. It uses the explorers it is given. -/
theorem C106_client_network_partial (constants : Res Json) (addresses : List Address) (n : NetworkType) :
    (∀ s, NamesNetwork s n → clientNew constants .none (.str s) = .ok ⟨some n, n.defaultExplorers.map some⟩ ∧
      clientNew constants (.client addresses) (.str s) = .ok ⟨some n, addresses⟩) ∧
    clientNew constants .none (.type n) = .ok ⟨some n, n.defaultExplorers.map some⟩ ∧
    clientNew constants (.client addresses) (.type n) = .ok ⟨some n, addresses⟩ ∧
    clientNew constants .none .none = clientNew constants .none (.type .standard) ∧
    (∀ c info s, constants = .ok c → c.idx "chaininfo" = .ok info → info.idx "NetworkName" = .ok (.str s) → NamesNetwork s n →
      clientNew constants (.client addresses) .none = .ok ⟨some n, addresses⟩) ∧
    (∀ x, clientNew constants x .other = .error .typeError) ∧ ∀ y, y ≠ .other → clientNew constants .other y = .error .typeError := by
  refine ⟨fun s hs => ?_, rfl, rfl, rfl, ?_, ?_, ?_⟩
  · have := (fromStr_iff s n).2 hs
    simp [clientNew, NetworkArg.read, this, bind, Except.bind, pure, Except.pure]
  · intro c info s hc hi hs hn
    have hg : ∀ (j v d : Json) (k : String), j.idx k = .ok v → j.getD k d = .ok v := by
      intro j v d k h
      cases j with
      | obj l => simp only [Json.idx] at h; split at h
                 · rename_i v' hv; cases h; exact getD_some hv
                 · cases h
      | _ => cases h
    have := (fromStr_iff s n).2 hn
    simp only [clientNew, NetworkArg.read, hc, networkOf, hg _ _ _ _ hi, hg _ _ _ _ hs, this, bind, Except.bind, pure, Except.pure]
  · intro x; rfl
  · intro y hy; cases y <;> first | rfl | exact absurd rfl hy

/-- **C106**: the minimum fee is 1 TFT on the development network and 0.1 TFT on the others; the networks have different explorers, which are asked
over https but for the local one. -/
theorem C106_fee_and_explorers (n : NetworkType) (hn : IsNetwork n) :
    (∃ c, n.minimumMinerFee = .ok c ∧ GoodCurrency c ∧ amount c = if n.value = 2 then 10 ^ 9 else 10 ^ 8) ∧
    n.defaultExplorers ≠ [] ∧
    (∀ m, IsNetwork m → m ≠ n → ∀ a ∈ n.defaultExplorers, a ∉ m.defaultExplorers) ∧
    ∀ a ∈ n.defaultExplorers, "https://".toList.isPrefixOf a = true ∨ (n.value = 2 ∧ a = "http://localhost:23110".toList) := by
  have three : ∀ m : NetworkType, IsNetwork m → m = .standard ∨ m = .testnet ∨ m = .devnet := by
    rintro ⟨v⟩ hm
    rcases hm with h | h | h <;> (simp only at h; subst h; decide)
  refine ⟨?_, ?_, ?_, ?_⟩
  · rcases three n hn with rfl | rfl | rfl
    · exact ⟨⟨some ⟨false, 1, -1⟩⟩, by decide +kernel, by decide +kernel, by decide +kernel⟩
    · exact ⟨⟨some ⟨false, 1, -1⟩⟩, by decide +kernel, by decide +kernel, by decide +kernel⟩
    · exact ⟨⟨some ⟨false, 10, -1⟩⟩, by decide +kernel, by decide +kernel, by decide +kernel⟩
  · rcases three n hn with rfl | rfl | rfl <;> decide
  · intro m hm
    rcases three n hn with rfl | rfl | rfl <;> rcases three m hm with rfl | rfl | rfl <;> decide +kernel
  · rcases three n hn with rfl | rfl | rfl <;> decide +kernel

/-- **C106** (finding). A text that names no network is not refused: without explorers given the client is for the standard network, with explorers
given for the network of these, or for none at all if they do not name one either, and then it has no minimum fee. -/
theorem C106_client_network_false (constants : Res Json) (s : Str) (hs : ∀ n, ¬ NamesNetwork s n) :
    clientNew constants .none (.str s) = clientNew constants .none .none ∧
    (∀ addresses, clientNew constants (.client addresses) (.str s) = clientNew constants (.client addresses) .none) ∧
    ∃ addresses c, clientNew (.ok (.obj [("chaininfo", .obj [("NetworkName", .str s)])])) (.client addresses) (.str s) = .ok c ∧ c.network = none ∧
      c.minimumMinerFee = .error .attributeError := by
  have h : NetworkType.fromStr s = none := by
    cases hf : NetworkType.fromStr s with
    | none => rfl
    | some n => exact absurd ((fromStr_iff s n).1 hf) (hs n)
  refine ⟨by simp [clientNew, NetworkArg.read, h], fun a => by simp [clientNew, NetworkArg.read, h], [], ⟨none, []⟩, ?_, rfl, rfl⟩
  have hg : (Json.obj [("chaininfo", .obj [("NetworkName", .str s)])]).getD "chaininfo" (.obj []) = .ok (.obj [("NetworkName", .str s)]) := rfl
  have hg2 : (Json.obj [("NetworkName", .str s)]).getD "NetworkName" (.str "standard".toList) = .ok (.str s) := rfl
  simp only [clientNew, NetworkArg.read, h, networkOf, hg, hg2, bind, Except.bind, pure, Except.pure]

example : NamesNetwork "TestNet".toList .testnet := .inr (.inl ⟨rfl, by unfold SameLetters; decide⟩)
example : ∀ n, ¬ NamesNetwork "tesnet".toList n := by
  intro n h
  have := (fromStr_iff _ n).2 h
  rw [show NetworkType.fromStr "tesnet".toList = none by decide] at this; cases this
example : IsNetwork .devnet := .inr (.inr rfl)

end TF.Props
