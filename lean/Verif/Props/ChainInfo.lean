import Verif.Spec.ChainInfo
import Verif.Props.Lookup
import Verif.Props.Keys
import Verif.Props.Swap
/-! # C102, C103: the last block, the mint condition and ERC20 registrations as the explorers tell them -/
namespace TF.Props
open TF Spec

theorem personal_canonical {u : UnlockHash} (h : PersonalAddress u) : CanonicalAddress u := .inl ⟨by rw [h.1]; decide, h.2⟩

theorem erc20_of_says {H : Bytes → Bytes} (hH : Digest32 H) {resp : Json} {u : UnlockHash} {a : Bytes} {n : Int} (hu : PersonalAddress u) (ha : a.length = 20)
    (h : SaysRegistered H resp u a n) : readErc20 H resp = .ok ⟨u, a, n⟩ := by
  obtain ⟨h1, e, h2, h3, h4, h5⟩ := h
  have hh : resp.has "erc20info" = .ok true := by
    unfold Json.idx at h2
    split at h2
    · unfold Json.has
      simp only
      split at h2
      · rename_i e'; rw [e']; rfl
      · cases h2
    · cases h2
  have hs : Json.isStr (.str "unlockhash".toList) "unlockhash".toList = true := by unfold Json.isStr; simp
  have he : expect true = .ok () := rfl
  unfold readErc20 Erc20Info.ofJson
  simp only [h1, h2, h3, h4, h5, hs, he, hh, bind, Except.bind, (C22_address_roundtrip H hH u (personal_canonical hu)).2, erc20_back (.inl rfl) (.inr ha),
    Json.toInt]
  rfl

theorem erc20_unregistered {H : Bytes → Bytes} {resp : Json} (h : SaysUnregistered resp) : readErc20 H resp = .error .explorerNoContent := by
  obtain ⟨l, rfl, h1, h2⟩ := h
  have hs : Json.isStr (.str "unlockhash".toList) "unlockhash".toList = true := by unfold Json.isStr; simp
  have he : expect true = .ok () := rfl
  unfold readErc20 Json.idx Json.has
  simp only [h1, h2, hs, he, bind, Except.bind]
  rfl

theorem erc20Get_uh (C : Client) {u : UnlockHash} (hu : u.type = 1) :
    C.erc20Get (.uh u) = (C.get (hashesEndpoint (u.str C.H)) >>= fun resp => keyErrorInvalid (readErc20 C.H resp)) := by
  unfold Client.erc20Get
  simp only [SourceArg.resolve, bind, Except.bind, hu, ne_eq, not_true_eq_false, if_false, pure, Except.pure]

theorem erc20_says {C : Client} {ep : Str} {r : Res Json} {x : Res Erc20Info} (h : C.get ep = r) (hx : (r >>= fun resp => keyErrorInvalid (readErc20 C.H resp)) = x) :
    (C.get ep >>= fun resp => keyErrorInvalid (readErc20 C.H resp)) = x := by rw [h, hx]

/-- **C102**: a client of truthful explorers tells about a wallet address, given as object or as text, exactly whether it is registered and how. -/
theorem C102_erc20 (C : Client) (hH : Digest32 C.H) (reg : UnlockHash → Option (Bytes × Int)) (hC : KnowsRegistrations C reg) (u : UnlockHash)
    (hu : PersonalAddress u) :
    C.erc20Get (.uh u) = told? (registration? reg u) ∧ C.erc20Get (.str (u.str C.H)) = C.erc20Get (.uh u) := by
  have hr := (C22_address_roundtrip C.H hH u (personal_canonical hu)).2
  refine ⟨?_, ?_⟩
  · have h := hC u hu
    rw [erc20Get_uh C hu.1]
    unfold registration?
    cases hg : reg u with
    | none =>
      rw [hg] at h
      rcases h with h | ⟨resp, h, hs⟩
      · exact erc20_says h rfl
      · refine erc20_says h ?_
        show keyErrorInvalid (readErc20 C.H resp) = _
        rw [erc20_unregistered hs]; rfl
    | some r =>
      obtain ⟨a, n⟩ := r
      rw [hg] at h
      obtain ⟨ha, resp, h, hs⟩ := h
      refine erc20_says h ?_
      show keyErrorInvalid (readErc20 C.H resp) = _
      rw [erc20_of_says hH hu ha hs]; rfl
  · unfold Client.erc20Get
    simp only [SourceArg.resolve, hr]

/-- **C102**: asking about anything but a wallet address is refused. -/
theorem C102_erc20_only_personal (C : Client) (u : UnlockHash) (hu : u.type ≠ 1) : C.erc20Get (.uh u) = .error .typeError := by
  unfold Client.erc20Get
  simp only [SourceArg.resolve, bind, Except.bind, if_pos hu]
  rfl

/-- **C102**: the current mint condition, and the one at a block height, are those the explorer tells. -/
theorem C102_mint_condition (C : Client) (hH : Digest32 C.H) (c : Condition) (hc : CanonicalCondition c) (resp : Json)
    (hs : resp.idx "mintcondition" = .ok (c.json C.H)) :
    (C.get "/explorer/mintcondition".toList = .ok resp → C.mintConditionGet none = .ok c) ∧
    ∀ h : Nat, C.get ("/explorer/mintcondition/".toList ++ natStr h) = .ok resp → C.mintConditionGet (some h) = .ok c := by
  have key : keyErrorInvalid (resp.idx "mintcondition" >>= Condition.fromJson C.H) = .ok c := by
    rw [hs]
    show keyErrorInvalid (Condition.fromJson C.H (c.json C.H)) = .ok c
    rw [C28_condition_json_partial C.H hH c hc]; rfl
  refine ⟨fun hg => ?_, fun h hg => ?_⟩
  · unfold Client.mintConditionGet
    simp only [hg, bind, Except.bind] at key ⊢
    exact key
  · have hi : intStr h = natStr h := by unfold intStr; rw [if_neg (by omega)]; rfl
    unfold Client.mintConditionGet
    simp only [hi, hg, bind, Except.bind] at key ⊢
    exact key

theorem blockGet_same (C : Client) {v v' : BVal} {id : Hash} (h : Hash.new v = .ok id) (h' : Hash.new v' = .ok id) : C.blockGet (.id v) = C.blockGet (.id v') := by
  unfold Client.blockGet
  simp only [h, h']

/-- **C102**: when the explorer names its last block and gives that block when asked for, `blockchain_info_get` tells the height, the time and the id of
that block. -/
theorem C102_last_block (C : Client) (id : Hash) (hl : id.value.length = 32) (hz : id.value ≠ List.replicate 32 0) (resp : Json)
    (hg : C.get "/explorer".toList = .ok resp) (hs : resp.idx "blockid" = .ok (.str id.str)) (b : Block) (hb : C.blockGet (.id (.str id.str)) = .ok b) :
    C.infoGet = .ok ⟨b.height, b.time, id⟩ := by
  have h1 := C12_hash_text_roundtrip_partial id hl
  have hne : id.str ≠ [] := by
    intro h0; have := hash_str_length (h := id) (.inr hl); rw [h0] at this; cases this
  have h2 : Hash.new (.str id.str) = .ok id := by
    unfold Hash.fromJson at h1
    rw [if_neg hne] at h1; exact h1
  have h3 : Hash.new (.data ⟨id.value, some 32, .hex⟩) = .ok id := by
    unfold Hash.new
    have hd : BinData.new (.data ⟨id.value, some 32, .hex⟩) (some 32) .hex = .ok ⟨id.value, some 32, .hex⟩ := binNew32.mpr ⟨⟨rfl, .inr hl⟩, rfl, rfl⟩
    rw [hd]; rfl
  have hzs : id.str ≠ List.replicate 64 '0' := by
    intro h0
    have e : (⟨List.replicate 32 0⟩ : Hash).str = List.replicate 64 '0' := by decide
    have hf := (hash_new_str h2).1
    rw [h0, ← e] at hf
    have h4 : fromHex (⟨List.replicate 32 0⟩ : Hash).str = some (List.replicate 32 0) := by decide
    rw [h4] at hf
    exact hz (Option.some.inj hf).symm
  have hid := C95_block C (.str id.str) b id h2 hzs hb
  unfold Client.infoGet
  simp only [hg, hs, bind, Except.bind, hashOfJson, h1, blockGet_same C h3 h2, hb, hid]
  rfl

/-! ## The registrations of a wallet (C103) -/

theorem erc20All_spec (C : Client) (hH : Digest32 C.H) (reg : UnlockHash → Option (Bytes × Int)) (hC : KnowsRegistrations C reg) :
    ∀ us : List UnlockHash, (∀ u ∈ us, PersonalAddress u) → C.erc20All (us.map (·.str C.H)) = .ok (us.filterMap (registration? reg)) := by
  intro us
  induction us with
  | nil => intro _; rfl
  | cons u us ih =>
    intro hu
    obtain ⟨h1, h2⟩ := C102_erc20 C hH reg hC u (hu u (by simp))
    rw [h1] at h2
    have ih := ih fun v hv => hu v (by simp [hv])
    simp only [List.map_cons, Client.erc20All, h2]
    cases h : registration? reg u with
    | none => simp only [told?, List.filterMap_cons, h, ih]
    | some i => simp only [told?, List.filterMap_cons, h, ih]; rfl

theorem key_personal {H derive : Bytes → Bytes} (hH : Digest32 H) (hd : Digest32 derive) {seed : Bytes} {i : Nat} {k : PublicKey} {u : UnlockHash}
    (hk : SeedKey H derive seed i k) (hu : k.unlockhash H = .ok u) : PersonalAddress u := by
  obtain ⟨bs, -, -, rfl⟩ := hk
  obtain ⟨e, he⟩ := key_unlockhash H (k := ⟨.ed25519, ⟨derive (H (seed ++ bs))⟩⟩) (by show (derive _).length ≤ 32; rw [hd]; decide)
  rw [he] at hu
  cases hu
  exact ⟨rfl, hH e⟩

/-- **C103**: `erc20.addresses_get` of a wallet gives, in the order of its addresses, the registrations of exactly those addresses that are registered. -/
theorem C103_own_all (C : Client) (derive : Bytes → Bytes) (hH : Digest32 C.H) (hd : Digest32 derive) (reg : UnlockHash → Option (Bytes × Int))
    (hC : KnowsRegistrations C reg) (seed : Bytes) (n sc : Int) (s keys : Keys) (h : Keys.init C.H derive seed n sc = .ok s)
    (hs : KeySteps C.H derive s keys) :
    ∃ us : List UnlockHash, us.map (·.str C.H) = keys.pairs.map Prod.fst ∧ (∀ u, u ∈ us ↔ OwnsAddress C.H keys u) ∧
      C.ownErc20All (.ok (keys.pairs.map Prod.fst)) = .ok (us.filterMap (registration? reg)) := by
  have hp := (C59_seed_keys C.H derive hd seed n sc s keys h hs).2.2.2.1
  have key : ∀ l : List (Str × PublicKey), (∀ p ∈ l, ∃ i, SeedKey C.H derive seed i p.2 ∧ HasAddress C.H p.2 p.1) →
      ∃ us : List UnlockHash, us.map (·.str C.H) = l.map Prod.fst ∧ (∀ u ∈ us, PersonalAddress u) ∧ ∀ u, u ∈ us ↔ ∃ p ∈ l, p.2.unlockhash C.H = .ok u := by
    intro l
    induction l with
    | nil => intro _; exact ⟨[], rfl, by simp, by simp⟩
    | cons p l ih =>
      intro hl
      obtain ⟨us, i1, i2, i3⟩ := ih fun q hq => hl q (by simp [hq])
      obtain ⟨i, hk, u, hu, ha⟩ := hl p (by simp)
      refine ⟨u :: us, by simp [i1, ha], ?_, ?_⟩
      · intro v hv
        rcases List.mem_cons.1 hv with rfl | hv
        · exact key_personal hH hd hk hu
        · exact i2 v hv
      · intro v
        simp only [List.mem_cons, i3, exists_eq_or_imp, hu]
        constructor
        · rintro (rfl | h)
          · exact .inl rfl
          · exact .inr h
        · rintro (h | h)
          · cases h; exact .inl rfl
          · exact .inr h
  obtain ⟨us, h1, h2, h3⟩ := key keys.pairs hp
  refine ⟨us, h1, h3, ?_⟩
  show C.erc20All (keys.pairs.map Prod.fst) = _
  rw [← h1, erc20All_spec C hH reg hC us h2]

/-- **C103 (nothing is left out silently).** Whatever the explorers answer: if the list is returned, each address was answered
about, by its registration, which is in the list, or by `ExplorerNoContent`; and everything in the list is such an answer. So when
the explorers cannot be asked about one address, the list is not returned. -/
theorem C103_answered (C : Client) (addresses : List Str) (l : List Erc20Info) (h : C.ownErc20All (.ok addresses) = .ok l) :
    (∀ a ∈ addresses, C.erc20Get (.str a) = .error .explorerNoContent ∨ ∃ i ∈ l, C.erc20Get (.str a) = .ok i) ∧
    (∀ i ∈ l, ∃ a ∈ addresses, C.erc20Get (.str a) = .ok i) := by
  change C.erc20All addresses = .ok l at h
  induction addresses generalizing l with
  | nil => cases h; exact ⟨by simp, by simp⟩
  | cons a as ih =>
    simp only [Client.erc20All] at h
    cases hg : C.erc20Get (.str a) with
    | ok i =>
      rw [hg] at h
      cases hr : C.erc20All as with
      | error e => rw [hr] at h; cases h
      | ok l' =>
        rw [hr] at h
        cases h
        obtain ⟨h1, h2⟩ := ih l' hr
        refine ⟨fun b hb => ?_, fun j hj => ?_⟩
        · rcases List.mem_cons.1 hb with rfl | hb
          · exact .inr ⟨i, by simp, hg⟩
          · rcases h1 b hb with h | ⟨j, hj, h⟩
            · exact .inl h
            · exact .inr ⟨j, by simp [hj], h⟩
        · rcases List.mem_cons.1 hj with rfl | hj
          · exact ⟨a, by simp, hg⟩
          · obtain ⟨b, hb, h⟩ := h2 j hj
            exact ⟨b, by simp [hb], h⟩
    | error e =>
      rw [hg] at h
      by_cases he : e = .explorerNoContent
      · subst he
        obtain ⟨h1, h2⟩ := ih l h
        refine ⟨fun b hb => ?_, fun j hj => ?_⟩
        · rcases List.mem_cons.1 hb with rfl | hb
          · exact .inl hg
          · exact h1 b hb
        · obtain ⟨b, hb, h⟩ := h2 j hj
          exact ⟨b, by simp [hb], h⟩
      · exfalso
        cases e <;> first | exact he rfl | (cases h)

theorem personal_text {H : Bytes → Bytes} {u : UnlockHash} (h : u.type = 1) : (u.str H).take 2 ≠ "00".toList := by
  unfold UnlockHash.str
  rw [h]
  have e : toHex [1] = ['0', '1'] := by decide
  rw [e]
  intro hc
  have : (['0', '1'] ++ u.hash.str ++ toHex ((u.checksum H).take 6)).take 2 = ['0', '1'] := rfl
  rw [this] at hc
  exact absurd hc (by decide)

/-- A key that is looked up by a personal address has this address. -/
theorem get_personal {H : Bytes → Bytes} {keys : Keys} (hp : ∀ p ∈ keys.pairs, ∃ v, PersonalAddress v ∧ p.2.unlockhash H = .ok v ∧ v.str H = p.1)
    {u : UnlockHash} (hu : PersonalAddress u) :
    (OwnsAddress H keys u → ∃ k, keys.get? (u.str H) = some k ∧ k.unlockhash H = .ok u) ∧ (¬ OwnsAddress H keys u → keys.get? (u.str H) = none) := by
  have e : keys.get? (u.str H) = keys.lookup (u.str H) := if_neg (personal_text hu.1)
  rw [e]
  unfold Keys.lookup
  cases hf : keys.pairs.find? fun p => p.1 = u.str H with
  | none =>
    refine ⟨fun ⟨p, h1, h2⟩ => ?_, fun _ => rfl⟩
    obtain ⟨v, -, h3, h4⟩ := hp p h1
    rw [h2] at h3; cases h3
    have := List.find?_eq_none.1 hf p h1
    simp [h4] at this
  | some p =>
    have h1 := List.mem_of_find?_eq_some hf
    have h2 := List.find?_some hf
    simp only [decide_eq_true_eq] at h2
    obtain ⟨v, hv, h3, h4⟩ := hp p h1
    have : v = u := str_inj (by exact hv.2) (by exact hu.2) (h4.trans h2)
    subst this
    exact ⟨fun _ => ⟨p.2, rfl, h3⟩, fun h => absurd ⟨p, h1, h3⟩ h⟩

/-- **C103**: `erc20.address_get` of a wallet answers for an address it owns — given as object, as text, by its index or, without argument, the primary
one — what the explorers know, and refuses every other wallet address. -/
theorem C103_own (C : Client) (derive : Bytes → Bytes) (hH : Digest32 C.H) (hd : Digest32 derive) (reg : UnlockHash → Option (Bytes × Int))
    (hC : KnowsRegistrations C reg) (seed : Bytes) (n sc : Int) (s keys : Keys) (h : Keys.init C.H derive seed n sc = .ok s)
    (hs : KeySteps C.H derive s keys) (addresses : Res (List Str)) :
    (∀ u, OwnsAddress C.H keys u → C.ownErc20 keys addresses (.uh u) = told? (registration? reg u) ∧
      C.ownErc20 keys addresses (.str (u.str C.H)) = told? (registration? reg u) ∧
      (u.str C.H = keys.primary → C.ownErc20 keys addresses .new = told? (registration? reg u)) ∧
      ∀ (l : List Str) (i : Nat), addresses = .ok l → l[i]? = some (u.str C.H) → C.ownErc20 keys addresses (.index i) = told? (registration? reg u)) ∧
    ∀ u, PersonalAddress u → ¬ OwnsAddress C.H keys u → C.ownErc20 keys addresses (.uh u) = .error .exception ∧
      C.ownErc20 keys addresses (.str (u.str C.H)) = .error .exception := by
  have hp : ∀ p ∈ keys.pairs, ∃ v, PersonalAddress v ∧ p.2.unlockhash C.H = .ok v ∧ v.str C.H = p.1 := by
    intro p hm
    obtain ⟨i, hk, v, h1, h2⟩ := (C59_seed_keys C.H derive hd seed n sc s keys h hs).2.2.2.1 p hm
    exact ⟨v, key_personal hH hd hk h1, h1, h2⟩
  refine ⟨fun u ho => ?_, fun u hu ho => ?_⟩
  · have hu : PersonalAddress u := by
      obtain ⟨p, h1, h2⟩ := ho
      obtain ⟨v, h3, h4, -⟩ := hp p h1
      rw [h2] at h4; cases h4; exact h3
    obtain ⟨k, h1, h2⟩ := (get_personal hp hu).1 ho
    have ht := (C102_erc20 C hH reg hC u hu).1
    refine ⟨?_, ?_, fun hpr => ?_, fun l i ha hi => ?_⟩
    · simp only [Client.ownErc20, ownKey, h1, h2, bind, Except.bind, ht]
    · simp only [Client.ownErc20, ownKey, h1, h2, bind, Except.bind, ht]
    · simp only [Client.ownErc20, ownKey, ← hpr, h1, h2, bind, Except.bind, ht]
    · have hil := (List.getElem?_eq_some_iff.1 hi).1
      have hb : ¬ ((i : Int) < 0 ∨ (i : Int) ≥ l.length) := by omega
      simp only [Client.ownErc20, ownKey, ha, hb, hi, h1, h2, bind, Except.bind, ht, if_false, pure, Except.pure, Int.toNat_natCast]
  · have hn := (get_personal hp hu).2 ho
    refine ⟨?_, ?_⟩
    · simp only [Client.ownErc20, ownKey, hn, bind, Except.bind]
    · simp only [Client.ownErc20, ownKey, hn, bind, Except.bind, (C22_address_roundtrip C.H hH u (personal_canonical hu)).2]
      rfl

/-! ## Witnesses -/

/-- An explorer that knows these registrations. -/
def registry (H : Bytes → Bytes) (l : List (UnlockHash × Bytes × Int)) : Client :=
  ⟨noIp, H, fun ep => match l.find? fun r => ep = "/explorer/hashes/".toList ++ r.1.str H with
    | some (u, a, n) => .ok (.obj [("hashtype", .str "unlockhash".toList), ("erc20info", .obj [("tftaddress", .str (u.str H)),
        ("erc20address", .str (erc20Str a)), ("confirmations", .int n)])])
    | none => .error .explorerNoContent⟩

theorem find_congr {α : Type} {f g : α → Bool} : ∀ {l : List α}, (∀ a ∈ l, f a = g a) → l.find? f = l.find? g := by
  intro l
  induction l with
  | nil => intro _; rfl
  | cons a l ih => intro h; simp only [List.find?_cons, h a (by simp), ih fun b hb => h b (by simp [hb])]

/-- The hypothesis on the explorers can be met for any registrations. -/
theorem registry_knows (H : Bytes → Bytes) (l : List (UnlockHash × Bytes × Int)) (hl : ∀ r ∈ l, PersonalAddress r.1 ∧ r.2.1.length = 20) :
    KnowsRegistrations (registry H l) (fun u => (l.find? fun r => r.1 = u).map (·.2)) := by
  intro u hu
  have e : ∀ r ∈ l, (("/explorer/hashes/".toList ++ u.str H = "/explorer/hashes/".toList ++ r.1.str H) ↔ r.1 = u) := by
    intro r hr
    refine ⟨fun h => ?_, fun h => by rw [h]⟩
    exact str_inj (by exact (hl r hr).1.2) (by exact hu.2) (List.append_cancel_left h).symm
  have ef : (l.find? fun r => "/explorer/hashes/".toList ++ u.str H = "/explorer/hashes/".toList ++ r.1.str H) = l.find? fun r => r.1 = u :=
    find_congr (fun r hr => by rw [decide_eq_decide]; exact e r hr)
  cases hf : l.find? fun r => r.1 = u with
  | none =>
    simp only [hf, Option.map_none]
    left
    show (match l.find? _ with | some (u, a, n) => _ | none => _) = _
    erw [ef, hf]
  | some r =>
    obtain ⟨v, a, n⟩ := r
    have hv : v = u := by have := List.find?_some hf; simpa using this
    have hm := List.mem_of_find?_eq_some hf
    subst hv
    simp only [hf, Option.map_some]
    refine ⟨(hl _ hm).2, .obj [("hashtype", .str "unlockhash".toList), ("erc20info", .obj [("tftaddress", .str (v.str H)),
        ("erc20address", .str (erc20Str a)), ("confirmations", .int n)])], ?_, rfl, _, rfl, rfl, rfl, rfl⟩
    show (match l.find? _ with | some (u, a, n) => _ | none => _) = _
    erw [ef, hf]

/-- Key 1 is registered, 6 blocks ago; key 2 is not. -/
def ercDemo : Client := registry toyHash [(addrOf key1, List.replicate 20 5, 6)]

example : KnowsRegistrations ercDemo (fun u => ([(addrOf key1, List.replicate 20 5, (6 : Int))].find? fun r => r.1 = u).map (·.2)) :=
  registry_knows toyHash _ (by simp only [List.mem_singleton, forall_eq]; exact ⟨⟨by decide, by decide +kernel⟩, by decide⟩)
example : PersonalAddress (addrOf key1) ∧ PersonalAddress (addrOf key2) := ⟨⟨by decide, by decide +kernel⟩, by decide, by decide +kernel⟩
example : ercDemo.erc20Get (.uh (addrOf key1)) = .ok ⟨addrOf key1, List.replicate 20 5, 6⟩ ∧
    ercDemo.erc20Get (.uh (addrOf key2)) = .error .explorerNoContent ∧ (addrOf key2).type ≠ 0 := by decide +kernel
example : msAddr.type = 3 ∧ ercDemo.erc20Get (.uh msAddr) = .error .typeError := by decide +kernel

/-- A wallet with two keys of which the second is registered. -/
def ercKeys : Keys := match Keys.init tailHash tailHash [] 2 (-1) with
  | .ok s => s
  | .error _ => ⟨[], [], [], 0, [], 3⟩
@[inherit_doc ercKeys] def ercSecond : UnlockHash := match ercKeys.pairs with
  | [_, p] => (p.2.unlockhash tailHash).toOption.getD .default
  | _ => .default
@[inherit_doc ercKeys] def ercWallet : Client := registry tailHash [(ercSecond, List.replicate 20 5, 6)]

example : Keys.init tailHash tailHash [] 2 (-1) = .ok ercKeys ∧ KeySteps tailHash tailHash ercKeys ercKeys ∧ ercKeys.pairs.length = 2 :=
  ⟨by decide +kernel, .refl, by decide +kernel⟩
example : KnowsRegistrations ercWallet (fun u => ([(ercSecond, List.replicate 20 5, (6 : Int))].find? fun r => r.1 = u).map (·.2)) :=
  registry_knows tailHash _ (by simp only [List.mem_singleton, forall_eq]; exact ⟨⟨by decide +kernel, by decide +kernel⟩, by decide⟩)
example : ercWallet.ownErc20All (.ok (ercKeys.pairs.map Prod.fst)) = .ok [⟨ercSecond, List.replicate 20 5, 6⟩] := by decide +kernel
example : ercWallet.ownErc20 ercKeys (.ok (ercKeys.pairs.map Prod.fst)) (.index 1) = .ok ⟨ercSecond, List.replicate 20 5, 6⟩ ∧
    ercWallet.ownErc20 ercKeys (.ok (ercKeys.pairs.map Prod.fst)) .new = .error .explorerNoContent ∧
    ercWallet.ownErc20 ercKeys (.ok (ercKeys.pairs.map Prod.fst)) (.uh (addrOf key1)) = .error .exception := by decide +kernel
example : OwnsAddress tailHash ercKeys ercSecond := by
  refine ⟨(ercKeys.pairs.getLast (by decide +kernel)), List.getLast_mem _, by decide +kernel⟩

/-- An explorer that knows a mint condition, one that was valid at height 5, and its last block. -/
def minted : Client := ⟨noIp, toyHash, fun ep =>
  if ep = "/explorer/mintcondition".toList then .ok (.obj [("mintcondition", (Condition.unlockHash (addrOf key1)).json toyHash)])
  else if ep = "/explorer/mintcondition/5".toList then .ok (.obj [("mintcondition", (Condition.unlockHash (addrOf key2)).json toyHash)])
  else if ep = "/explorer".toList then .ok (.obj [("blockid", .str (Hash.str ⟨List.replicate 32 21⟩))])
  else if ep = "/explorer/hashes/".toList ++ Hash.str ⟨List.replicate 32 21⟩ then .ok (.obj [("hashtype", .str "blockid".toList), ("block", blockEntry)])
  else .error .explorerNoContent⟩

example : minted.mintConditionGet none = .ok (.unlockHash (addrOf key1)) ∧ minted.mintConditionGet (some 5) = .ok (.unlockHash (addrOf key2)) := by
  decide +kernel
example : minted.infoGet = .ok ⟨7, 1500000000, ⟨List.replicate 32 21⟩⟩ := by decide +kernel

/-- **C95** is false for ERC20 registrations: whatever registration is in the answer is passed on. -/
theorem C95_erc20_false : ∃ (C : Client) (u : UnlockHash) (i : Erc20Info), Digest32 C.H ∧ PersonalAddress u ∧ C.erc20Get (.uh u) = .ok i ∧ i.tft ≠ u :=
  ⟨⟨noIp, toyHash, fun _ => .ok (.obj [("hashtype", .str "unlockhash".toList), ("erc20info", .obj [("tftaddress", .str ((addrOf key2).str toyHash)),
      ("erc20address", .str (erc20Str (List.replicate 20 5))), ("confirmations", .int 6)])])⟩, addrOf key1, ⟨addrOf key2, List.replicate 20 5, 6⟩,
    toyHash_digest, ⟨by decide, by decide +kernel⟩, by decide +kernel, by decide +kernel⟩

end TF.Props
