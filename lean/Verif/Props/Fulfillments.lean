import Verif.Spec.Signing
import Verif.Props.Conditions
/-!
# Properties C31–C35, C70: signing (types/FulfillmentTypes.py)
-/
namespace TF.Props
open TF Spec

/-- A sample key, signature and hash used for concrete instances. -/
def key1 : PublicKey := ⟨.ed25519, ⟨List.replicate 32 7⟩⟩
@[inherit_doc key1] def key2 : PublicKey := ⟨.ed25519, ⟨List.replicate 32 9⟩⟩
@[inherit_doc key1] def sig1 : BVal := .bytes (List.replicate 64 1)
@[inherit_doc key1] def addrOf (k : PublicKey) : UnlockHash := match k.unlockhash toyHash with
  | .ok u => u
  | .error _ => .default

/-! ## C31 -/

/-- **C31**. Over any history of attempts on a request — interleaved with arbitrary other changes of the fulfillment — at most one
attempt returns normally, and every attempt after it raises `DoubleSignError`. -/
theorem C31_sign_once (H : Bytes → Bytes) (r : Request) (f : Fulfillment) (es : List SignEvent) :
    ((attemptOutcomes H r f es).filter (· = none)).length ≤ 1 ∧
    ∀ pre post, attemptOutcomes H r f es = pre ++ none :: post → ∀ o ∈ post, o = some .doubleSignatureError := by
  have key : ∀ (r : Request) (f : Fulfillment), r.signed = true → ∀ o ∈ attemptOutcomes H r f es, o = some .doubleSignatureError := by
    induction es with
    | nil => intro r f _ o h; simp [attemptOutcomes] at h
    | cons e es ih =>
      intro r f hr o h
      cases e with
      | change f' => exact ih r f' hr o h
      | attempt k sig =>
        simp only [attemptOutcomes, Request.fulfill, Request.fulfillCb, hr, ↓reduceIte, List.mem_cons] at h
        rcases h with h | h
        · exact h
        · exact ih r f hr o h
  induction es generalizing r f with
  | nil => simp [attemptOutcomes]
  | cons e es ih =>
    have key' : ∀ (r : Request) (f : Fulfillment), r.signed = true →
        ∀ o ∈ attemptOutcomes H r f es, o = some .doubleSignatureError := by
      intro r f hr o ho
      exact key r f hr o (by
        show o ∈ attemptOutcomes H r f (e :: es)
        cases e with
        | change f' =>
          show o ∈ attemptOutcomes H r f' es
          have : ∀ (es : List SignEvent) (g g' : Fulfillment), attemptOutcomes H r g es = attemptOutcomes H r g' es := by
            intro es
            induction es with
            | nil => intro g g'; rfl
            | cons e es ih2 =>
              intro g g'
              cases e with
              | change _ => rfl
              | attempt k sig =>
                simp only [attemptOutcomes, Request.fulfill, Request.fulfillCb, hr, ↓reduceIte]
                rw [ih2 g g']
          rw [this es f' f]; exact ho
        | attempt k sig =>
          simp only [attemptOutcomes, Request.fulfill, Request.fulfillCb, hr, ↓reduceIte, List.mem_cons]
          exact .inr ho)
    cases e with
    | change f' => exact ih r f' (fun r f hr o ho => key' r f hr o ho)
    | attempt k sig =>
      have ih' := ih (r.fulfill H f k sig).1.1 (r.fulfill H f k sig).1.2 (fun r f hr o ho => key' r f hr o ho)
      have hs : (r.fulfill H f k sig).2 = none → (r.fulfill H f k sig).1.1.signed = true := by
        unfold Request.fulfill Request.fulfillCb
        repeat' split
        all_goals first | (intro h; cases h; done) | (intro _; rfl)
      simp only [attemptOutcomes]
      cases ho : (r.fulfill H f k sig).2 with
      | none =>
        have hall := key' _ (r.fulfill H f k sig).1.2 (hs ho)
        constructor
        · rw [List.filter_cons_of_pos (by simp)]
          rw [List.filter_eq_nil_iff.2 (by intro o h; rw [hall o h]; simp)]; simp
        · intro pre post h o hp
          cases pre with
          | nil => simp at h; exact hall o (h ▸ hp)
          | cons x pre =>
            simp at h
            exact hall o (by rw [h.2]; simp [hp])
      | some e =>
        constructor
        · rw [List.filter_cons_of_neg (by simp)]; exact ih'.1
        · intro pre post h o hp
          cases pre with
          | nil => simp at h
          | cons x pre =>
            simp at h
            exact ih'.2 pre post h.2 o hp

/-- **C31**, the effect of a further attempt: nothing changes. -/
theorem C31_second_attempt_changes_nothing (H : Bytes → Bytes) (r : Request) (f f' : Fulfillment) (k k' : KeyArg) (sig sig' : BVal)
    (h : (r.fulfill H f k sig).2 = none) :
    (r.fulfill H f k sig).1.1.fulfill H f' k' sig' = (((r.fulfill H f k sig).1.1, f'), some .doubleSignatureError) := by
  have hs : (r.fulfill H f k sig).1.1.signed = true := by
    revert h
    unfold Request.fulfill Request.fulfillCb
    repeat' split
    all_goals first | (intro h; cases h; done) | (intro _; rfl)
  generalize (r.fulfill H f k sig).1.1 = r' at hs
  simp [Request.fulfill, Request.fulfillCb, hs]

example : attemptOutcomes toyHash { owner := addrOf key1 } (.single .default none)
    [.attempt (.key key2) sig1, .attempt (.key key1) sig1, .attempt (.key key1) sig1] =
    [some .valueError, none, some .doubleSignatureError] := by decide +kernel

/-! ## C32 -/

/-- The address of a key (payload of at most 32 bytes) is a digest with type 1. -/
theorem key_unlockhash (H : Bytes → Bytes) {k : PublicKey} (hk : k.hash.value.length ≤ 32) :
    ∃ e, k.unlockhash H = .ok ⟨1, ⟨H e⟩⟩ := by
  have h1 : k.sia.toRes = .ok (padSpecifier k.spec.str ++ (toBytesLE 8 k.hash.value.length ++ k.hash.value)) := by
    unfold PublicKey.sia
    rw [siaSliceBytes_ok (by omega)]; rfl
  have hpad : (padSpecifier k.spec.str).length = 16 := by cases k.spec <;> decide
  have h2 := siaSliceBytes_ok (b := padSpecifier k.spec.str ++ (toBytesLE 8 k.hash.value.length ++ k.hash.value)) (by
    simp [hpad]; omega)
  exact ⟨_, by
    unfold PublicKey.unlockhash
    rw [h1]
    simp only [bind, Except.bind]
    rw [h2]; rfl⟩

/-- **C32**. A request with a proper, non-nil address is fulfilled only by a key whose address is that address; any other key is
refused with `ValueError` and neither the request nor the fulfillment changes. Conversely the owner's key with a 64-byte signature is
accepted for a single-signature fulfillment, which then holds that key and signature. -/
theorem C32_owner_only (H : Bytes → Bytes) (hH : Digest32 H) (r : Request) (hr : r.owner.type ≠ 0) (ho : FullAddress r.owner)
    (hs : r.signed = false) (f : Fulfillment) (k : PublicKey) (hk : k.hash.value.length ≤ 32) (sig : BVal) :
    ((r.fulfill H f (.key k) sig).2 = none → k.unlockhash H = .ok r.owner) ∧
    (k.unlockhash H ≠ .ok r.owner → r.fulfill H f (.key k) sig = ((r, f), some .valueError)) ∧
    (∀ key old b, k.unlockhash H = .ok r.owner → b.length = 64 → f = .single key old → sig = .bytes b →
      (r.fulfill H f (.key k) sig) = (({ r with signed := true }, .single k (some ⟨b, false⟩)), none)) := by
  obtain ⟨u, hu, hfull⟩ : ∃ u, k.unlockhash H = .ok u ∧ FullAddress u := by
    obtain ⟨e, he⟩ := key_unlockhash H hk
    exact ⟨_, he, hH _⟩
  have hstr : r.owner.str H = u.str H ↔ u = r.owner := by
    constructor
    · intro h; exact (str_inj ho hfull h).symm
    · intro h; rw [h]
  unfold Request.fulfill Request.fulfillCb
  simp only [hs, hu, Bool.false_eq_true, ↓reduceIte]
  by_cases he : u = r.owner
  · have hcond : ¬ (r.owner.type ≠ 0 ∧ r.owner.str H ≠ u.str H) := by
      rintro ⟨-, h⟩; exact h (hstr.2 he)
    rw [if_neg hcond]
    refine ⟨fun _ => by rw [he], fun h => absurd (by rw [he]) h, ?_⟩
    intro key old b _ hb hf hsig
    subst hf hsig
    simp only [Fulfillment.signatureAdd, setKey, setSignature, Signature.new, BinData.new, BinData.set, BVal.norm, bind, Except.bind,
      pure, Except.pure]
    simp [hb]
  · have hcond : (r.owner.type ≠ 0 ∧ r.owner.str H ≠ u.str H) := ⟨hr, fun h => he (hstr.1 h)⟩
    rw [if_pos hcond]
    refine ⟨fun h => (by simp at h), fun _ => rfl, ?_⟩
    intro key old b h
    exact absurd (by injection h) he

example : (({ owner := addrOf key1 } : Request).fulfill toyHash (.single .default none) (.key key1) sig1).2 = none := by decide +kernel
example : (addrOf key1).type ≠ 0 ∧ (addrOf key1).hash.value.length = 32 := by decide +kernel

/-- **C32** (any key for the nil address). -/
theorem C32_nil_address_any_key (H : Bytes → Bytes) (k : PublicKey) (u : UnlockHash) (hk : k.unlockhash H = .ok u) (b : Bytes)
    (hb : b.length = 64) (key : PublicKey) (old : Option Signature) :
    (({ owner := .default } : Request).fulfill H (.single key old) (.key k) (.bytes b)) =
      (({ owner := .default, signed := true }, .single k (some ⟨b, false⟩)), none) := by
  simp only [Request.fulfill, Request.fulfillCb, hk, UnlockHash.default]
  simp [Fulfillment.signatureAdd, setKey, setSignature, Signature.new, BinData.new, BinData.set, BVal.norm, bind, Except.bind, pure,
    Except.pure, hb]

example : ∃ u, key1.unlockhash toyHash = .ok u := ⟨addrOf key1, by decide +kernel⟩

/-! ## C33 -/

theorem addPair_distinct {pairs ps : List KeySig} {k : KeyArg} {sig : BVal} (hk : k ≠ .none)
    (hd : (pairs.map (·.key.str)).Nodup) (h : addPair pairs k sig = .ok ps) : (ps.map (·.key.str)).Nodup := by
  cases k with
  | none => exact absurd rfl hk
  | other => cases h
  | key k =>
    simp only [addPair] at h
    split at h
    · cases h
    · rename_i hany
      cases hs : setSignature sig with
      | error e => simp [hs, setKey, bind, Except.bind, pure, Except.pure] at h
      | ok s =>
        simp [hs, setKey, bind, Except.bind, pure, Except.pure] at h
        subst h
        simp only [List.map_append, List.map_cons, List.map_nil]
        rw [List.nodup_append]
        refine ⟨hd, by simp, ?_⟩
        intro a ha b hb
        simp at hb ha
        obtain ⟨p, hp, rfl⟩ := ha
        subst hb
        intro he
        apply hany
        rw [List.any_eq_true]
        exact ⟨p, hp, by simp [he]⟩

theorem addPairs_distinct (l : List (KeyArg × BVal)) : ∀ pairs : List KeySig, (∀ x ∈ l, x.1 ≠ .none) →
    (pairs.map (·.key.str)).Nodup → ((addPairs pairs l).1.map (·.key.str)).Nodup := by
  induction l with
  | nil => intro pairs _ h; exact h
  | cons x l ih =>
    intro pairs hn hd
    obtain ⟨k, s⟩ := x
    simp only [addPairs]
    cases h : addPair pairs k s with
    | error e => exact hd
    | ok ps => exact ih ps (fun x hx => hn x (by simp [hx])) (addPair_distinct (hn (k, s) (by simp)) hd h)

theorem multiStep_distinct (H : Bytes → Bytes) (pairs : List KeySig) (op : MultiOp) (hn : op.NoNone)
    (hd : (pairs.map (·.key.str)).Nodup) : ((multiStep H pairs op).map (·.key.str)).Nodup := by
  have hadd : ∀ k sig, k ≠ KeyArg.none → ((match addPair pairs k sig with
      | .ok ps => ps
      | .error _ => pairs : List KeySig).map (·.key.str)).Nodup := by
    intro k sig hk
    cases h : addPair pairs k sig with
    | error e => exact hd
    | ok ps => exact addPair_distinct hk hd h
  cases op with
  | add k sig => exact hadd k sig hn
  | assign l => exact addPairs_distinct l [] hn (by simp)
  | sign r k sig =>
    have h0 := hadd k sig hn
    simp only [multiStep, Request.fulfill, Request.fulfillCb]
    split
    · rename_i ps heq
      split at heq
      · cases heq; exact hd
      · split at heq
        · split at heq
          · cases heq; exact hd
          · split at heq
            · cases heq; exact hd
            · simp only [Fulfillment.signatureAdd] at heq
              cases h : addPair pairs (.key ‹PublicKey›) sig with
              | error e => simp [h] at heq; subst heq; exact hd
              | ok ps' => simp [h] at heq; subst heq; exact addPair_distinct (by simp) hd h
        · cases heq; exact hd
    · exact hd

/-- **C33** (what holds). However pairs get into a multi-signature fulfillment — construction from a list, `add_pair`, assignment of
`pairs`, signing requests, succeeding or raising — no two pairs have the same public key, as long as no call passes `None` for a key;
and the fulfillment counts as fulfilled exactly when it holds at least the required number of signatures. -/
theorem C33_multisig_distinct_partial (H : Bytes → Bytes) (init : List (KeyArg × BVal)) (hinit : ∀ x ∈ init, x.1 ≠ .none)
    (ops : List MultiOp) (hops : ∀ op ∈ ops, op.NoNone) :
    ((multiRun H (addPairs [] init).1 ops).map (·.key)).Nodup ∧
    ∀ c owners n, c.unwrap = .multiSig owners n →
      (Fulfillment.multi (multiRun H (addPairs [] init).1 ops)).isFulfilled c =
        .ok (decide (n ≤ ((multiRun H (addPairs [] init).1 ops).length : Int))) := by
  constructor
  · have : ((multiRun H (addPairs [] init).1 ops).map (·.key.str)).Nodup := by
      have h0 := addPairs_distinct init [] hinit (by simp)
      generalize (addPairs [] init).1 = p0 at h0
      clear hinit init
      unfold multiRun
      induction ops generalizing p0 with
      | nil => exact h0
      | cons op ops ih =>
        exact ih (fun op h => hops op (by simp [h])) _ (multiStep_distinct H p0 op (hops op (by simp)) h0)
    have e : (multiRun H (addPairs [] init).1 ops).map (·.key.str) =
        ((multiRun H (addPairs [] init).1 ops).map (·.key)).map PublicKey.str := by simp
    rw [e] at this
    exact List.Pairwise.of_map _ (fun a b h he => h (by rw [he])) this
  · intro c owners n h
    simp only [Fulfillment.isFulfilled, h]

/-- **C33** (finding). Passing `None` as key is accepted again and again: the fulfillment then holds several pairs of the default
key. -/
theorem C33_multisig_distinct_false : ¬ ∀ (H : Bytes → Bytes) (ops : List MultiOp), ((multiRun H [] ops).map (·.key)).Nodup := by
  intro h
  exact absurd (h toyHash [.add .none .none, .add .none .none]) (by decide)

example : multiRun toyHash [] [.add (.key key1) sig1, .add (.key key1) sig1, .sign { owner := addrOf key2 } (.key key2) sig1] =
    [⟨key1, ⟨List.replicate 64 1, false⟩⟩, ⟨key2, ⟨List.replicate 64 1, false⟩⟩] := by decide +kernel
example : (Fulfillment.multi [⟨key1, .default⟩]).isFulfilled (.lockTime 5 (.multiSig [addrOf key1, addrOf key2] 2)) = .ok false := by
  decide +kernel

/-! ## C34 -/

theorem addPair_mem {pairs ps : List KeySig} {k : PublicKey} {sig : BVal} (h : addPair pairs (.key k) sig = .ok ps) :
    ∃ s, ps = pairs ++ [⟨k, s⟩] := by
  simp only [addPair] at h
  split at h
  · cases h
  · cases hs : setSignature sig with
    | error e => simp [hs, setKey, bind, Except.bind, pure, Except.pure] at h
    | ok s =>
      simp [hs, setKey, bind, Except.bind, pure, Except.pure] at h
      exact ⟨_, h.symm⟩

/-- The requests a multi-signature fulfillment makes are for owners of the condition. -/
theorem multi_requests_owner {H : Bytes → Bytes} {pairs : List KeySig} {c : Condition} {owners : List UnlockHash} {n : Int}
    (hc : c.unwrap = .multiSig owners n) {rs : List Request} (h : (Fulfillment.multi pairs).requests H c = .ok rs) :
    ∀ r ∈ rs, r.owner ∈ owners := by
  simp only [Fulfillment.requests, hc] at h
  simp only [bind, Except.bind] at h
  split at h
  · cases h
  · simp only [pure, Except.pure, Except.ok.injEq] at h
    subst h
    intro r hr
    simp at hr
    obtain ⟨u, ⟨hu, -⟩, rfl⟩ := hr
    exact hu

/-- Invariant of a session: all requests are for owners, and every pair is of a distinct key whose address prints as an owner's. -/
def SessInv (H : Bytes → Bytes) (owners : List UnlockHash) (s : Session) : Prop :=
  (∀ r ∈ s.reqs, r.owner ∈ owners) ∧ ∃ pairs, s.f = .multi pairs ∧ (pairs.map (·.key.str)).Nodup ∧
    ∀ p ∈ pairs, ∃ u, p.key.unlockhash H = .ok u ∧ ∃ o ∈ owners, o.str H = u.str H

theorem session_inv (H : Bytes → Bytes) (c : Condition) (owners : List UnlockHash) (n : Int) (hc : c.unwrap = .multiSig owners n)
    (hnil : ∀ o ∈ owners, o.type ≠ 0) (ops : List SessOp) : SessInv H owners (sessionRun H c ops) := by
  have step : ∀ s op, SessInv H owners s → SessInv H owners (s.step H c op) := by
    rintro ⟨f, reqs⟩ op ⟨h1, pairs, h2, h3, h4⟩
    simp only at h1 h2
    subst h2
    cases op with
    | request =>
      simp only [Session.step]
      cases hr : (Fulfillment.multi pairs).requests H c with
      | error e => exact ⟨h1, pairs, rfl, h3, h4⟩
      | ok rs =>
        refine ⟨?_, pairs, rfl, h3, h4⟩
        intro r hr'
        simp only [List.mem_append] at hr'
        rcases hr' with hr' | hr'
        · exact h1 r hr'
        · exact multi_requests_owner hc hr r hr'
    | fulfill i k sig =>
      simp only [Session.step]
      cases hi : reqs[i]? with
      | none => exact ⟨h1, pairs, rfl, h3, h4⟩
      | some r =>
        have hmem : r ∈ reqs := List.mem_of_getElem? hi
        have hown := h1 r hmem
        simp only
        have hreq : ∀ r' : Request, r'.owner = r.owner → ∀ x ∈ reqs.set i r', x.owner ∈ owners := by
          intro r' hr' x hx
          rcases List.mem_or_eq_of_mem_set hx with h | h
          · exact h1 x h
          · rw [h, hr']; exact hown
        unfold Request.fulfill Request.fulfillCb
        split
        · exact ⟨hreq _ rfl, pairs, rfl, h3, h4⟩
        · split
          · rename_i pk
            split
            · exact ⟨hreq _ rfl, pairs, rfl, h3, h4⟩
            · rename_i u hu
              split
              · exact ⟨hreq _ rfl, pairs, rfl, h3, h4⟩
              · rename_i hne
                have hstr : r.owner.str H = u.str H := by
                  by_cases hx : r.owner.str H = u.str H
                  · exact hx
                  · exact absurd ⟨hnil _ hown, hx⟩ hne
                simp only [Fulfillment.signatureAdd]
                cases ha : addPair pairs (.key pk) sig with
                | error e => exact ⟨hreq _ rfl, pairs, rfl, h3, h4⟩
                | ok ps =>
                  obtain ⟨s, hps⟩ := addPair_mem ha
                  refine ⟨hreq _ rfl, ps, rfl, addPair_distinct (by simp) h3 ha, ?_⟩
                  intro p hp
                  rw [hps] at hp
                  simp at hp
                  rcases hp with hp | hp
                  · exact h4 p hp
                  · subst hp; exact ⟨u, hu, r.owner, hown, hstr⟩
          · exact ⟨hreq _ rfl, pairs, rfl, h3, h4⟩
  unfold sessionRun
  have h0 : SessInv H owners ⟨.multi [], []⟩ := ⟨by simp, [], rfl, by simp, by simp⟩
  generalize (⟨.multi [], []⟩ : Session) = s0 at h0
  induction ops generalizing s0 with
  | nil => exact h0
  | cons op ops ih => exact ih _ (step _ op h0)

/-- **C34** (what holds). Take a fresh multi-signature fulfillment and a condition whose owners are proper, non-nil addresses, and let
signatures arrive only through the signature requests it makes (in any order, with failing attempts, asking for requests again at any
time). If it then counts as fulfilled, there are at least `n` distinct owners of the condition, each having a signature by a key with
that address. (No two of the signers' keys collide under the hash.) -/
theorem C34_signers_are_owners_partial (H : Bytes → Bytes) (hH : Digest32 H) (c : Condition) (owners : List UnlockHash) (n : Int)
    (hc : c.unwrap = .multiSig owners n) (hnil : ∀ o ∈ owners, o.type ≠ 0) (hfull : ∀ o ∈ owners, FullAddress o)
    (ops : List SessOp) (pairs : List KeySig) (hp : (sessionRun H c ops).f = .multi pairs)
    (hcoll : ∀ p ∈ pairs, ∀ q ∈ pairs, p.key.unlockhash H = q.key.unlockhash H → p.key = q.key)
    (hful : (Fulfillment.multi pairs).isFulfilled c = .ok true) :
    ∃ signers : List UnlockHash, signers.Nodup ∧ n ≤ signers.length ∧
      ∀ u ∈ signers, u ∈ owners ∧ ∃ p ∈ pairs, p.key.unlockhash H = .ok u := by
  obtain ⟨-, pairs', h2, h3, h4⟩ := session_inv H c owners n hc hnil ops
  rw [hp] at h2; cases h2
  simp only [Fulfillment.isFulfilled, hc, Except.ok.injEq, decide_eq_true_eq] at hful
  have hex : ∀ p ∈ pairs, ∃ u ∈ owners, p.key.unlockhash H = .ok u := by
    intro p hpm
    obtain ⟨u, hu, o, ho, hs⟩ := h4 p hpm
    have hfu : FullAddress u := by
      simp only [PublicKey.unlockhash, bind, Except.bind, pure, Except.pure] at hu
      split at hu
      · cases hu
      · split at hu
        · cases hu
        · cases hu; exact hH _
    have := str_inj (hfull o ho) hfu hs
    exact ⟨o, ho, by rw [hu, this]⟩
  have hnd : (pairs.map (·.key)).Nodup := by
    have e : pairs.map (·.key.str) = (pairs.map (·.key)).map PublicKey.str := by simp
    rw [e] at h3
    exact List.Pairwise.of_map _ (fun a b h he => h (by rw [he])) h3
  refine ⟨pairs.map fun p => match p.key.unlockhash H with
    | .ok u => u
    | .error _ => .default, ?_, by simpa using hful, ?_⟩
  · clear hful hp h3 h4
    induction pairs with
    | nil => simp
    | cons p ps ih =>
      simp only [List.map_cons, List.nodup_cons] at hnd ⊢
      refine ⟨?_, ih (fun a ha b hb => hcoll a (by simp [ha]) b (by simp [hb])) (fun a ha => hex a (by simp [ha])) hnd.2⟩
      intro hm
      rw [List.mem_map] at hm
      obtain ⟨q, hq, he⟩ := hm
      obtain ⟨u, -, hu⟩ := hex p (by simp)
      obtain ⟨v, -, hv⟩ := hex q (by simp [hq])
      rw [hu, hv] at he
      simp only at he
      have := hcoll p (by simp) q (by simp [hq]) (by rw [hu, hv, he])
      apply hnd.1
      rw [this]
      exact List.mem_map_of_mem hq
  · intro u hu
    rw [List.mem_map] at hu
    obtain ⟨p, hpm, rfl⟩ := hu
    obtain ⟨v, hv, hv'⟩ := hex p hpm
    rw [hv']
    exact ⟨hv, p, hpm, hv'⟩

/-- **C34** (finding). In general the claim fails: `add_pair` accepts a stranger's key, and JSON loading accepts the same key twice;
either way the condition counts as fulfilled. -/
theorem C34_signers_are_owners_false :
    (∃ (pairs : List KeySig), addPair [] (.key key2) sig1 = .ok pairs ∧
      (Fulfillment.multi pairs).isFulfilled (.multiSig [addrOf key1] 1) = .ok true ∧ ∀ p ∈ pairs, p.key = key2) ∧
    (∃ (pairs : List KeySig), Fulfillment.fromJson (.obj [("type", .int 3), ("data", .obj [("pairs",
        .arr [KeySig.json ⟨key1, .default⟩, KeySig.json ⟨key1, .default⟩])])]) = .ok (.multi pairs) ∧
      (Fulfillment.multi pairs).isFulfilled (.multiSig [addrOf key1, addrOf key2] 2) = .ok true ∧ ∀ p ∈ pairs, p.key = key1) := by
  refine ⟨⟨[⟨key2, ⟨List.replicate 64 1, false⟩⟩], by decide, by decide +kernel, by decide⟩,
    ⟨[⟨key1, .default⟩, ⟨key1, .default⟩], by decide +kernel, by decide +kernel, by decide⟩⟩

example : sessionRun toyHash (.multiSig [addrOf key1, addrOf key2] 2)
    [.request, .fulfill 1 (.key key1) sig1, .fulfill 1 (.key key2) sig1, .request, .fulfill 2 (.key key1) sig1] |>.f |>.isFulfilled
      (.multiSig [addrOf key1, addrOf key2] 2) |> (· = .ok true) := by decide +kernel

/-! ## C35 -/

theorem sig_json {s : Signature} (h : s.value.length = 64) (ha : s.asArray = false) :
    Signature.fromJson (.str s.str) false = .ok s := by
  have hne : s.str ≠ [] := by
    intro h'; have := congrArg List.length h'; simp [Signature.str, toHex_length, h] at this
  unfold Signature.fromJson
  simp only [if_neg hne]
  unfold Signature.new BinData.new BinData.set BVal.norm StrEnc.fromStr Signature.str
  simp only [fromHex_toHex]
  cases s
  simp_all [bind, Except.bind, pure, Except.pure]

theorem key_json {k : PublicKey} (h : FullKey k) : PublicKey.fromJson (.str k.str) = .ok k := (C21_public_key_text_partial.1 k h).2

theorem secret_json {b : Bytes} (h : b.length = 32) : secretOfJson (.str (toHex b)) = .ok b := by
  unfold secretOfJson BinData.new BinData.set BVal.norm StrEnc.fromStr
  simp [fromHex_toHex, h, bind, Except.bind, pure, Except.pure]

theorem from_json_dispatch (f : Fulfillment) : Fulfillment.fromJson f.json = (match f with
    | .single .. => singleOfJson f.jsonData
    | .multi _ => multiOfJson f.jsonData
    | .swap .. => swapOfJson f.jsonData) := by
  have e1 : condTypeOf f.json = .ok (some (f.type : Int)) := rfl
  have e2 : condDataOf f.json = .ok f.jsonData := rfl
  cases f <;> simp [Fulfillment.fromJson, e1, e2, Fulfillment.type, bind, Except.bind]

/-- **C35** (what holds). A fulfillment whose key, signature and secret are all there survives `json` / `from_json` unchanged, hence
with the same encodings and the same answer to `is_fulfilled`. -/
theorem C35_fulfillment_json_partial (f : Fulfillment) (hf : FullFulfillment f) : Fulfillment.fromJson f.json = .ok f := by
  cases f with
  | single k s =>
    obtain ⟨hk, x, rfl, hx⟩ := hf
    rw [from_json_dispatch]
    simp only [singleOfJson, Fulfillment.jsonData, Json.idx, jget]
    simp [bind, Except.bind, pure, Except.pure, key_json hk, sig_json hx.1 hx.2]
  | multi ps =>
    rw [from_json_dispatch]
    simp only [multiOfJson, Fulfillment.jsonData, Json.idx, jget]
    simp only [List.find?, beq_self_eq_true, Option.map, bind, Except.bind, Json.iter, pure, Except.pure]
    rw [mapM_ok KeySig.fromJson KeySig.json ps]
    intro p hp
    obtain ⟨hk, hs⟩ := hf p hp
    cases p
    simp only [KeySig.fromJson, KeySig.json, Json.idx, jget]
    simp only at hk hs
    simp [bind, Except.bind, pure, Except.pure, key_json hk, sig_json hs.1 hs.2]
  | swap k s sec =>
    obtain ⟨hk, ⟨x, rfl, hx⟩, hsec⟩ := hf
    rw [from_json_dispatch]
    cases sec with
    | none =>
      simp only [swapOfJson, Fulfillment.jsonData, Json.idx, jget]
      simp [bind, Except.bind, pure, Except.pure, key_json hk, sig_json hx.1 hx.2]
    | some b =>
      simp only [swapOfJson, Fulfillment.jsonData, Json.idx, jget]
      simp [bind, Except.bind, pure, Except.pure, key_json hk, sig_json hx.1 hx.2, secret_json (hsec b rfl)]

/-- **C35** (finding). An unsigned fulfillment comes back from JSON as a fulfilled one, for single-signature and atomic swap
fulfillments alike. -/
theorem C35_fulfillment_json_false :
    (∃ (f g : Fulfillment) (c : Condition), f.isFulfilled c = .ok false ∧ Fulfillment.fromJson f.json = .ok g ∧ g.isFulfilled c = .ok true ∧
      f = .single key1 none) ∧
    (∃ (f g : Fulfillment) (c : Condition), f.isFulfilled c = .ok false ∧ Fulfillment.fromJson f.json = .ok g ∧ g.isFulfilled c = .ok true ∧
      f = .swap key1 none none) := by
  refine ⟨⟨.single key1 none, .single key1 (some .default), .unlockHash (addrOf key1), by decide +kernel, by decide +kernel,
    by decide +kernel, rfl⟩, ⟨.swap key1 none none, .swap key1 (some .default) none,
    .atomicSwap (addrOf key1) (addrOf key2) (some (List.replicate 32 0)) 1700000000, by decide +kernel, by decide +kernel,
    by decide +kernel, rfl⟩⟩

example : FullFulfillment (.swap key1 (some ⟨List.replicate 64 3, false⟩) (some (List.replicate 32 5))) := by
  refine ⟨by unfold FullKey; decide, ⟨_, rfl, by unfold FullSig; decide⟩, ?_⟩
  intro b h; cases h; decide

/-! ## C70 -/

/-- **C70** (what holds). A signing attempt that raises leaves the signatures held by the fulfillment — hence its fulfilled state —
unchanged, and the request open. -/
theorem C70_failed_attempt_partial (H : Bytes → Bytes) (r : Request) (f : Fulfillment) (k : KeyArg) (sig : BVal) (e : Err)
    (h : (r.fulfill H f k sig).2 = some e) :
    (r.fulfill H f k sig).1.1 = r ∧ (∀ c, (r.fulfill H f k sig).1.2.isFulfilled c = f.isFulfilled c) ∧
    (∀ ps, f = .multi ps → (r.fulfill H f k sig).1.2 = f) := by
  revert h
  unfold Request.fulfill Request.fulfillCb
  split
  · intro _; exact ⟨rfl, fun _ => rfl, fun _ _ => rfl⟩
  · split
    · split
      · intro _; exact ⟨rfl, fun _ => rfl, fun _ _ => rfl⟩
      · split
        · intro _; exact ⟨rfl, fun _ => rfl, fun _ _ => rfl⟩
        · split
          · rename_i f' e' hsa
            intro _
            refine ⟨rfl, ?_, ?_⟩
            · intro c
              cases f with
              | single key s =>
                simp only [Fulfillment.signatureAdd, setKey] at hsa
                cases hs : setSignature sig <;> simp [hs] at hsa
                obtain ⟨rfl, -⟩ := hsa; rfl
              | swap key s sec =>
                simp only [Fulfillment.signatureAdd, setKey] at hsa
                cases hs : setSignature sig <;> simp [hs] at hsa
                obtain ⟨rfl, -⟩ := hsa; rfl
              | multi ps =>
                simp only [Fulfillment.signatureAdd] at hsa
                split at hsa <;> cases hsa
                rfl
            · intro ps hf
              subst hf
              simp only [Fulfillment.signatureAdd] at hsa
              split at hsa <;> cases hsa
              rfl
          · intro h; cases h
    · intro _; exact ⟨rfl, fun _ => rfl, fun _ _ => rfl⟩

/-- **C70** (finding). A refused attempt is not without effect: an ill-formed signature for the right key stores the key in a
single-signature fulfillment, after which it is not fulfilled yet makes no signature request any more. -/
theorem C70_failed_attempt_false :
    ∃ (r : Request) (f f' : Fulfillment) (c : Condition), f.requests toyHash c = .ok [r] ∧
      r.fulfill toyHash f (.key key1) (.bytes [1, 2, 3]) = ((r, f'), some .valueError) ∧
      f'.isFulfilled c = .ok false ∧ f'.requests toyHash c = .ok [] :=
  ⟨{ owner := addrOf key1 }, .single .default none, .single key1 none, .unlockHash (addrOf key1), by decide +kernel, by decide +kernel,
    by decide +kernel, by decide +kernel⟩

example : (({ owner := addrOf key1 } : Request).fulfill toyHash (.multi [⟨key1, .default⟩]) (.key key1) sig1).2 = some .valueError := by
  decide +kernel

end TF.Props
