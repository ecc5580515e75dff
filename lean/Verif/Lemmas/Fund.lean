import Verif.Lemmas.Balance
import Verif.Lemmas.Address
import Verif.Lemmas.NoIns
import Mathlib.Data.List.Perm.Subperm
import Mathlib.Data.List.Induction
/-! # Lemmas on funding -/
namespace TF
open Spec

/-- The last `n` elements. -/
def lastN {α : Type} (n : Nat) (l : List α) : List α := l.drop (l.length - n)

theorem lastN_of_le {α : Type} {n : Nat} {l : List α} (h : l.length ≤ n) : lastN n l = l := by
  unfold lastN; rw [Nat.sub_eq_zero_of_le h]; rfl

theorem lastN_length {α : Type} (n : Nat) (l : List α) : (lastN n l).length = min n l.length := by
  unfold lastN; rw [List.length_drop]; omega

theorem lastN_snoc {α : Type} {n : Nat} (l : List α) (x : α) :
    lastN n (lastN n l ++ [x]) = lastN n (l ++ [x]) := by
  unfold lastN
  by_cases h : l.length ≤ n
  · rw [Nat.sub_eq_zero_of_le h]; rfl
  · have hl : (l.drop (l.length - n)).length = n := by rw [List.length_drop]; omega
    cases n with
    | zero => simp
    | succ n =>
      rw [List.length_append, hl, List.length_append, List.length_singleton]
      rw [List.drop_append_of_le_length (by rw [hl]; omega), List.drop_drop, List.drop_append_of_le_length (by omega)]
      congr 2; omega

theorem fundTrim_eq {outs : List CoinOutput} {c : Currency} {r : List CoinOutput × Currency} (h : fundTrim outs c = .ok r)
    (hl : outs.length ≤ maxInputs + 1) : r.1 = lastN maxInputs outs := by
  unfold fundTrim at h
  cases outs with
  | nil => cases h; rfl
  | cons first rest =>
    simp only at h
    split at h
    · rename_i hgt
      simp only [bind, Except.bind] at h
      split at h
      · cases h
      · cases h
        have : (first :: rest).length = maxInputs + 1 := by omega
        unfold lastN
        rw [this]
        simp
    · rename_i hgt
      cases h
      rw [lastN_of_le (by omega)]

/-- One loop, whatever the amounts: at most 99 outputs, taken in order from those collected before and those looked at. -/
theorem fundLoop_shape {a : Currency} {l outs : List CoinOutput} {c : Currency} {r : Bool × List CoinOutput × Currency}
    (h : fundLoop a l outs c = .ok r) (hl : outs.length ≤ maxInputs) :
    r.2.1.length ≤ maxInputs ∧ r.2.1.Sublist (outs ++ l) := by
  induction l generalizing outs c with
  | nil => cases h; simpa using hl
  | cons co rest ih =>
    unfold fundLoop at h
    split at h
    · cases h
      exact ⟨by simp [maxInputs], by simp⟩
    · simp only [bind, Except.bind] at h
      split at h
      · cases h
      · rename_i c1 hc1
        split at h
        · cases h
        · rename_i t ht
          have htl := fundTrim_eq ht (by simp; omega)
          have hlen : t.1.length ≤ maxInputs := by rw [htl, lastN_length]; omega
          have hsub : t.1.Sublist (outs ++ [co]) := by rw [htl]; exact List.drop_sublist _ _
          split at h
          · simp only [pure, Except.pure, Except.ok.injEq] at h
            subst h
            refine ⟨hlen, hsub.trans ?_⟩
            rw [show outs ++ co :: rest = (outs ++ [co]) ++ rest by simp]
            exact List.sublist_append_left _ _
          · obtain ⟨h1, h2⟩ := ih h hlen
            refine ⟨h1, h2.trans ?_⟩
            rw [show outs ++ co :: rest = (outs ++ [co]) ++ rest by simp]
            exact hsub.append_right _

/-- One loop on sane amounts: what it collects is the total of what it returns; if it does not find enough it has tried every window. -/
theorem fundLoop_spec {a : Currency} (ha : GoodCurrency a) (l outs : List CoinOutput) (c : Currency) (hc : GoodCurrency c)
    (hco : amount c = total outs) (hl : outs.length ≤ maxInputs) (hs : SaneOutputs (outs ++ l)) :
    ∃ done outs' c', fundLoop a l outs c = .ok (done, outs', c') ∧ GoodCurrency c' ∧ amount c' = total outs' ∧
      (done = true → amount a ≤ total outs') ∧
      (done = false → outs' = lastN maxInputs (outs ++ l) ∧
        ∀ k, 0 < k → k ≤ l.length → total (lastN maxInputs (outs ++ l.take k)) < amount a) := by
  induction l generalizing outs c with
  | nil =>
    refine ⟨false, outs, c, rfl, hc, hco, by simp, fun _ => ⟨?_, ?_⟩⟩
    · rw [List.append_nil, lastN_of_le hl]
    · intro k h1 h2; simp at h2; omega
  | cons co rest ih =>
    have hgood : GoodCurrency co.value := hs.1 co (by simp)
    unfold fundLoop
    split
    · rename_i hle
      refine ⟨true, [co], co.value, rfl, hgood, by simp [total], fun _ => ?_, by simp⟩
      have := (le_amount ha hgood).1 hle
      simpa [total] using this
    · have htot := hs.2
      rw [total_append, total_cons] at htot
      obtain ⟨c1, h1, h2, h3⟩ := add_amount hc hgood (by omega)
      have htrim : ∃ c2, fundTrim (outs ++ [co]) c1 = .ok (lastN maxInputs (outs ++ [co]), c2) ∧ GoodCurrency c2 ∧
          amount c2 = total (lastN maxInputs (outs ++ [co])) := by
        by_cases hlt : outs.length < maxInputs
        · refine ⟨c1, ?_, h2, ?_⟩
          · rw [lastN_of_le (by simp; omega)]
            unfold fundTrim
            cases outs with
            | nil => rfl
            | cons f r =>
              simp only [List.cons_append]
              rw [if_neg]
              simp at hlt ⊢; omega
          · rw [lastN_of_le (by simp; omega), h3, hco, total_append]
            simp [total]
        · have hlen : outs.length = maxInputs := by omega
          cases outs with
          | nil => simp [maxInputs] at hlen
          | cons f r =>
            have hf : GoodCurrency f.value := hs.1 f (by simp)
            rw [total_cons] at hco
            obtain ⟨c2, h4, h5, h6⟩ := sub_amount h2 hf (by rw [h3]; rw [total_cons] at htot; omega) (by rw [h3]; omega)
            have hlast : lastN maxInputs (f :: r ++ [co]) = r ++ [co] := by
              unfold lastN
              rw [show (f :: r ++ [co]).length - maxInputs = 1 by simp at hlen ⊢; omega]
              rfl
            refine ⟨c2, ?_, h5, ?_⟩
            · rw [hlast]
              unfold fundTrim
              simp only [List.cons_append]
              rw [if_pos (by simp at hlen ⊢; omega)]
              simp only [bind, Except.bind, h4]
              rfl
            · rw [hlast, h6, h3, hco, total_append]; simp [total]; omega
      obtain ⟨c2, ht, hc2, hca⟩ := htrim
      simp only [bind, Except.bind, h1, ht]
      split
      · rename_i hle
        exact ⟨true, _, c2, rfl, hc2, hca, fun _ => by rw [← hca]; exact (le_amount ha hc2).1 hle, by simp⟩
      · rename_i hle
        have hlt : total (lastN maxInputs (outs ++ [co])) < amount a := by
          rw [← hca]
          have := mt (le_amount ha hc2).2 hle
          omega
        obtain ⟨done, outs', c', e1, e2, e3, e4, e5⟩ := ih (lastN maxInputs (outs ++ [co])) c2 hc2 hca
          (by rw [lastN_length]; omega)
          (SaneOutputs.sublist hs (by
            rw [show outs ++ co :: rest = (outs ++ [co]) ++ rest by simp]
            exact (List.drop_sublist _ _).append_right _))
        have hwin : ∀ l', lastN maxInputs (lastN maxInputs (outs ++ [co]) ++ l') = lastN maxInputs (outs ++ co :: l') := by
          intro l'
          induction l' using List.reverseRecOn with
          | nil =>
            rw [List.append_nil, lastN_of_le (l := lastN maxInputs (outs ++ [co])) (by rw [lastN_length]; omega)]
          | append_singleton l' x ih' =>
            rw [← List.append_assoc, ← lastN_snoc, ih', lastN_snoc]; simp
        refine ⟨done, outs', c', e1, e2, e3, e4, fun hd => ⟨?_, ?_⟩⟩
        · rw [(e5 hd).1, hwin]
        · intro k hk1 hk2
          cases k with
          | zero => omega
          | succ k =>
            cases k with
            | zero => simpa using hlt
            | succ k =>
              have := (e5 hd).2 (k + 1) (by omega) (by simp at hk2; omega)
              rw [hwin] at this
              simpa using this

/-! ## Sorting -/

theorem insertBy_congr {α : Type} {le le' : α → α → Bool} {x : α} {l : List α} (h : ∀ y ∈ l, le x y = le' x y) : insertBy le x l = insertBy le' x l := by
  induction l with
  | nil => rfl
  | cons y ys ih =>
    unfold insertBy
    rw [h y List.mem_cons_self, ih fun z hz => h z (List.mem_cons_of_mem _ hz)]

theorem stableSort_congr {α : Type} {le le' : α → α → Bool} {l : List α} (h : ∀ x ∈ l, ∀ y ∈ l, le x y = le' x y) :
    stableSort le l = stableSort le' l := by
  induction l with
  | nil => rfl
  | cons x l ih =>
    have ih := ih fun a ha b hb => h a (List.mem_cons_of_mem _ ha) b (List.mem_cons_of_mem _ hb)
    show insertBy le x (stableSort le l) = insertBy le' x (stableSort le' l)
    rw [ih]
    exact insertBy_congr fun y hy => h x List.mem_cons_self y (List.mem_cons_of_mem _ ((stableSort_perm le' l).subset hy))

theorem not_lt_amount {a b : Currency} (ha : GoodCurrency a) (hb : GoodCurrency b) : (!a.lt b) = decide (amount b ≤ amount a) := by
  by_cases h : amount a < amount b
  · rw [(lt_amount ha hb).2 h]; simp; omega
  · have : a.lt b = false := by
      cases e : a.lt b
      · rfl
      · exact absurd ((lt_amount ha hb).1 e) h
    rw [this]; simp; omega

theorem sortUp_perm (l : List CoinOutput) : (sortUp l).Perm l := stableSort_perm _ _
theorem sortDown_perm (l : List CoinOutput) : (sortDown l).Perm l := stableSort_perm _ _

theorem sortUp_sorted {l : List CoinOutput} (h : ∀ co ∈ l, GoodCurrency co.value) :
    (sortUp l).Pairwise fun a b => amount a.value ≤ amount b.value := by
  have : sortUp l = stableSort (fun a b => decide (amount a.value ≤ amount b.value)) l :=
    stableSort_congr fun x hx y hy => not_lt_amount (h y hy) (h x hx)
  rw [this]
  refine (stableSort_sorted ?_ ?_ l).imp ?_
  · intro a b c; simp only [decide_eq_true_eq]; omega
  · intro a b; simp only [Bool.or_eq_true, decide_eq_true_eq]; omega
  · intro a b; simp

theorem sortDown_sorted {l : List CoinOutput} (h : ∀ co ∈ l, GoodCurrency co.value) :
    (sortDown l).Pairwise fun a b => amount b.value ≤ amount a.value := by
  have : sortDown l = stableSort (fun a b => decide (amount b.value ≤ amount a.value)) l :=
    stableSort_congr fun x hx y hy => not_lt_amount (h x hx) (h y hy)
  rw [this]
  refine (stableSort_sorted ?_ ?_ l).imp ?_
  · intro a b c; simp only [decide_eq_true_eq]; omega
  · intro a b; simp only [Bool.or_eq_true, decide_eq_true_eq]; omega
  · intro a b; simp

/-- In a list sorted downwards the first `k` elements are worth at least any other `k`. -/
theorem total_le_take {l s : List CoinOutput} (h : l.Pairwise fun a b => amount b.value ≤ amount a.value) (hs : s.Sublist l) :
    total s ≤ total (l.take s.length) := by
  induction l generalizing s with
  | nil => rw [List.sublist_nil.1 hs]; simp
  | cons x l ih =>
    rw [List.pairwise_cons] at h
    cases s with
    | nil => simp [total]
    | cons y s =>
      rw [List.length_cons, List.take_succ_cons, total_cons, total_cons]
      cases hs with
      | cons _ hs =>
        have h1 := h.1 y (hs.subset List.mem_cons_self)
        have h2 := ih h.2 ((List.sublist_cons_self y s).trans hs)
        omega
      | cons_cons _ hs =>
        have h2 := ih h.2 hs
        omega

theorem total_reverse (l : List CoinOutput) : total l.reverse = total l := total_perm (List.reverse_perm l)

/-- In a list sorted upwards the last `k` elements are worth at least any other `k`. -/
theorem total_le_lastN {l s : List CoinOutput} (h : l.Pairwise fun a b => amount a.value ≤ amount b.value) (hs : s.Sublist l) :
    total s ≤ total (lastN s.length l) := by
  have h1 : l.reverse.Pairwise fun a b => amount b.value ≤ amount a.value := List.pairwise_reverse.2 h
  have h2 := total_le_take h1 (List.reverse_sublist.2 hs)
  rw [total_reverse, List.length_reverse, List.take_reverse, total_reverse] at h2
  exact h2

theorem lastN_sublist {α : Type} {n m : Nat} (l : List α) (h : n ≤ m) : (lastN n l).Sublist (lastN m l) := by
  unfold lastN
  exact List.drop_sublist_drop_left l (by omega)

theorem lastN_append {α : Type} {n : Nat} (l l' : List α) (h : l'.length ≤ n) : lastN n (l ++ l') = lastN (n - l'.length) l ++ l' := by
  unfold lastN
  rw [List.length_append]
  by_cases hle : l.length + l'.length - n ≤ l.length
  · rw [List.drop_append_of_le_length hle]
    congr 2; omega
  · omega

/-! ## One wallet -/

theorem fundFrom_shape {a : Currency} {conf unc outs : List CoinOutput} {c : Currency} {r : Bool × List CoinOutput × Currency}
    (h : fundFrom a conf unc outs c = .ok r) (hl : outs.length ≤ maxInputs) :
    r.2.1.length ≤ maxInputs ∧ r.2.1.Subperm (outs ++ (conf ++ unc)) := by
  unfold fundFrom at h
  simp only [bind, Except.bind] at h
  split at h
  · cases h
  · rename_i r1 hr1
    obtain ⟨h1, h2⟩ := fundLoop_shape hr1 hl
    have hp1 : (outs ++ sortUp conf).Perm (outs ++ conf) := (sortUp_perm conf).append_left outs
    have s1 : r1.2.1.Subperm (outs ++ conf) := h2.subperm.trans hp1.subperm
    have s2 : r1.2.1.Subperm (outs ++ (conf ++ unc)) := by
      refine s1.trans ?_
      rw [← List.append_assoc]
      exact (List.sublist_append_left _ _).subperm
    split at h
    · cases h; exact ⟨h1, s2⟩
    · split at h
      · cases h; exact ⟨h1, s2⟩
      · obtain ⟨h3, h4⟩ := fundLoop_shape h h1
        refine ⟨h3, h4.subperm.trans ?_⟩
        rw [← List.append_assoc]
        exact ((List.subperm_append_right _).2 s1).trans ((sortDown_perm unc).append_left _).subperm

theorem fundFrom_spec {a : Currency} (ha : GoodCurrency a) (conf unc outs : List CoinOutput) (c : Currency) (hc : GoodCurrency c)
    (hco : amount c = total outs) (hl : outs.length ≤ maxInputs) (hs : SaneOutputs (outs ++ (conf ++ unc))) :
    ∃ done outs' c', fundFrom a conf unc outs c = .ok (done, outs', c') ∧ GoodCurrency c' ∧ amount c' = total outs' ∧
      (done = true → amount a ≤ total outs') ∧
      (done = false → outs' = lastN maxInputs (outs ++ (sortUp conf ++ sortDown unc)) ∧
        ∀ k, k ≤ unc.length → total (lastN maxInputs (outs ++ (sortUp conf ++ (sortDown unc).take k))) < amount a) := by
  have hperm : (outs ++ (sortUp conf ++ sortDown unc)).Perm (outs ++ (conf ++ unc)) :=
    ((sortUp_perm conf).append (sortDown_perm unc)).append_left outs
  have hs' : SaneOutputs (outs ++ (sortUp conf ++ sortDown unc)) :=
    ⟨fun co hco => hs.1 co (hperm.subset hco), by rw [total_perm hperm]; exact hs.2⟩
  obtain ⟨d1, o1, c1, e1, e2, e3, e4, e5⟩ := fundLoop_spec ha (sortUp conf) outs c hc hco hl
    (SaneOutputs.sublist hs' (by rw [← List.append_assoc]; exact List.sublist_append_left _ _))
  unfold fundFrom
  simp only [bind, Except.bind, e1]
  cases d1 with
  | true => exact ⟨true, o1, c1, rfl, e2, e3, e4, by simp⟩
  | false =>
    simp only [Bool.false_eq_true, if_false]
    obtain ⟨e5, e6⟩ := e5 rfl
    split
    · rename_i hle
      exact ⟨true, o1, c1, rfl, e2, e3, fun _ => by rw [← e3]; exact (le_amount ha e2).1 hle, by simp⟩
    · rename_i hle
      have hlt : total o1 < amount a := by
        rw [← e3]
        have := mt (le_amount ha e2).2 hle
        omega
      obtain ⟨d2, o2, c2, g1, g2, g3, g4, g5⟩ := fundLoop_spec ha (sortDown unc) o1 c1 e2 e3 (by rw [e5, lastN_length]; omega)
        (SaneOutputs.sublist hs' (by
          rw [e5, ← List.append_assoc]
          exact (List.drop_sublist _ _).append_right _))
      have hwin : ∀ l', lastN maxInputs (o1 ++ l') = lastN maxInputs (outs ++ (sortUp conf ++ l')) := by
        intro l'
        rw [e5, ← List.append_assoc]
        induction l' using List.reverseRecOn with
        | nil =>
          rw [List.append_nil, List.append_nil]
          rw [lastN_of_le (l := lastN maxInputs _) (by rw [lastN_length]; omega)]
        | append_singleton l' x ih' =>
          rw [← List.append_assoc, ← lastN_snoc, ih', lastN_snoc]; simp
      refine ⟨d2, o2, c2, g1, g2, g3, g4, fun hd => ?_⟩
      obtain ⟨g5, g6⟩ := g5 hd
      refine ⟨by rw [g5, hwin], ?_⟩
      intro k hk
      cases k with
      | zero =>
        rw [← hwin, List.take_zero, List.append_nil]
        rw [lastN_of_le (by rw [e5, lastN_length]; omega)]
        exact hlt
      | succ k =>
        have := g6 (k + 1) (by omega) (by rw [(sortDown_perm unc).length_eq]; exact hk)
        rwa [hwin] at this

/-- If one wallet alone does not find enough, no at most 99 of its outputs are enough. -/
theorem fundFrom_complete {a : Currency} (conf unc : List CoinOutput)
    (hs : ∀ co ∈ conf ++ unc, GoodCurrency co.value)
    (hw : ∀ k, k ≤ unc.length → total (lastN maxInputs (sortUp conf ++ (sortDown unc).take k)) < amount a)
    {s : List CoinOutput} (hsub : s.Subperm (conf ++ unc)) (hl : s.length ≤ maxInputs) : total s < amount a := by
  have hsub' : s.Subperm (sortUp conf ++ sortDown unc) :=
    hsub.trans ((sortUp_perm conf).append (sortDown_perm unc)).symm.subperm
  obtain ⟨s', hp, hs'⟩ := hsub'
  obtain ⟨s1, s2, rfl, h1, h2⟩ := List.sublist_append_iff.1 hs'
  rw [← total_perm hp]
  have hl' : s1.length + s2.length ≤ maxInputs := by rw [← List.length_append, hp.length_eq]; exact hl
  have b1 := total_le_lastN (sortUp_sorted fun co h => hs co (List.mem_append_left _ h)) h1
  have b2 := total_le_take (sortDown_sorted fun co h => hs co (List.mem_append_right _ h)) h2
  have hlen : s2.length ≤ unc.length := by rw [← (sortDown_perm unc).length_eq]; exact h2.length_le
  have hw := hw s2.length hlen
  have ht : ((sortDown unc).take s2.length).length = s2.length := by
    rw [List.length_take, (sortDown_perm unc).length_eq]; omega
  rw [lastN_append _ _ (by rw [ht]; omega), ht, total_append] at hw
  have b3 := total_sublist (lastN_sublist (sortUp conf) (show s1.length ≤ maxInputs - s2.length by omega))
  rw [total_append]
  omega

/-! ## Several wallets -/

/-- The output's address is among these. -/
def addrIn (H : Bytes → Bytes) (addrs : List UnlockHash) (co : CoinOutput) : Bool :=
  match co.condition.unlockhash H with
  | .ok u => addrs.contains u
  | .error _ => false

/-- The wallet's name reads as one of these addresses. -/
def walletIn (H : Bytes → Bytes) (addrs : List UnlockHash) (p : Str × MultiBalance) : Bool :=
  match UnlockHash.fromJson H (.str p.1) with
  | .ok u => addrs.contains u
  | .error _ => false

def personalElig (H : Bytes → Bytes) (w : Wallets) (addrs : List UnlockHash) : List CoinOutput := (spendable w.base).filter (addrIn H addrs)
def multiElig (H : Bytes → Bytes) (addrs : List UnlockHash) (ws : MultiMap) : List CoinOutput :=
  (ws.filter (walletIn H addrs)).flatMap fun p => spendable p.2.base

theorem filterAddress_eq {H : Bytes → Bytes} {addrs : List UnlockHash} {l r : List CoinOutput} (h : filterAddress H addrs l = .ok r) :
    r = l.filter (addrIn H addrs) := by
  induction l generalizing r with
  | nil => cases h; rfl
  | cons co l ih =>
    unfold filterAddress at h
    simp only [bind, Except.bind] at h
    split at h
    · cases h
    · rename_i u hu
      split at h
      · cases h
      · rename_i r' hr'
        simp only [pure, Except.pure, Except.ok.injEq] at h
        subst h
        rw [ih hr', List.filter_cons]
        unfold addrIn
        rw [hu]

theorem multiElig_cons (H : Bytes → Bytes) (addrs : List UnlockHash) (p : Str × MultiBalance) (ws : MultiMap) :
    multiElig H addrs (p :: ws) = (if walletIn H addrs p then spendable p.2.base else []) ++ multiElig H addrs ws := by
  unfold multiElig
  rw [List.filter_cons]
  split <;> simp

theorem fundPersonal_shape {H : Bytes → Bytes} {w : Wallets} {a : Currency} {addrs : List UnlockHash} {r : Bool × List CoinOutput × Currency}
    (h : w.fundPersonal H a addrs = .ok r) : r.2.1.length ≤ maxInputs ∧ r.2.1.Subperm (personalElig H w addrs) := by
  unfold Wallets.fundPersonal at h
  split at h
  · cases h
    exact ⟨by simp, List.nil_subperm⟩
  · unfold Wallets.fundIndividual at h
    simp only [bind, Except.bind] at h
    split at h
    · cases h
    · rename_i conf hconf
      split at h
      · cases h
      · rename_i unc hunc
        have := fundFrom_shape (hl := by simp) h
        rw [filterAddress_eq hconf, filterAddress_eq hunc, List.nil_append, ← List.filter_append] at this
        exact this

theorem fundPersonal_spec {H : Bytes → Bytes} {w : Wallets} {a : Currency} {addrs : List UnlockHash} {r : Bool × List CoinOutput × Currency}
    (ha : GoodCurrency a) (hs : SaneOutputs (personalElig H w addrs)) (h : w.fundPersonal H a addrs = .ok r) :
    GoodCurrency r.2.2 ∧ amount r.2.2 = total r.2.1 ∧
      (total r.2.1 < amount a →
        (∀ s : List CoinOutput, s.Subperm (personalElig H w addrs) → s.length ≤ maxInputs → total s < amount a) ∧
        ((personalElig H w addrs).length ≤ maxInputs → r.2.1.Perm (personalElig H w addrs))) := by
  unfold Wallets.fundPersonal at h
  split at h
  · rename_i he
    cases h
    have hnil : personalElig H w addrs = [] := by
      rw [List.length_eq_zero_iff] at he
      subst he
      unfold personalElig
      rw [List.filter_eq_nil_iff]
      intro co _
      unfold addrIn
      split <;> simp
    refine ⟨⟨rfl, by decide⟩, rfl, fun hlt => ⟨?_, ?_⟩⟩
    · intro s hsub _
      rw [hnil, List.subperm_nil] at hsub
      rw [hsub]; exact hlt
    · intro _; rw [hnil]
  · unfold Wallets.fundIndividual at h
    simp only [bind, Except.bind] at h
    split at h
    · cases h
    · rename_i conf hconf
      split at h
      · cases h
      · rename_i unc hunc
        have he : personalElig H w addrs = conf ++ unc := by
          rw [filterAddress_eq hconf, filterAddress_eq hunc, ← List.filter_append]; rfl
        rw [he] at hs ⊢
        have hz : Currency.set (.int 0) = .ok ⟨some ⟨false, 0, 0⟩⟩ := rfl
        rw [hz] at h
        obtain ⟨d, o, c, h1, h2, h3, h4, h5⟩ := fundFrom_spec ha conf unc [] _ good_zero (by rw [amount_zero]; rfl) (by simp) (by simpa using hs)
        simp only at h
        rw [h1] at h
        cases h
        refine ⟨h2, h3, fun hlt => ?_⟩
        have hd : d = false := by
          cases d
          · rfl
          · have := h4 rfl
            simp only at hlt; omega
        obtain ⟨h5, h6⟩ := h5 hd
        rw [List.nil_append] at h5
        refine ⟨fun s hsub hl => fundFrom_complete conf unc hs.1 (by simpa using h6) hsub hl, fun hle => ?_⟩
        have hp := (sortUp_perm conf).append (sortDown_perm unc)
        show o.Perm _
        rw [h5, lastN_of_le (by rw [hp.length_eq]; exact hle)]
        exact hp

theorem fundMulti_shape {H : Bytes → Bytes} {a : Currency} {addrs : List UnlockHash} {ws : MultiMap} {outs : List CoinOutput} {c : Currency}
    {r : List CoinOutput × Currency} (h : fundMulti H a addrs ws outs c = .ok r) (hl : outs.length ≤ maxInputs) :
    r.1.length ≤ maxInputs ∧ r.1.Subperm (outs ++ multiElig H addrs ws) := by
  induction ws generalizing outs c with
  | nil => cases h; exact ⟨hl, by simpa [multiElig] using List.Subperm.refl outs⟩
  | cons p ws ih =>
    unfold fundMulti at h
    simp only [bind, Except.bind] at h
    split at h
    · cases h
    · rename_i u hu
      rw [multiElig_cons]
      have hw : walletIn H addrs p = addrs.contains u := by unfold walletIn; rw [hu]
      rw [hw]
      split at h
      · rename_i hc
        rw [if_pos hc]
        split at h
        · cases h
        · rename_i r1 hr1
          obtain ⟨h1, h2⟩ := fundFrom_shape hr1 hl
          rw [show p.2.base.available ++ p.2.base.unconfAvailable = spendable p.2.base from rfl] at h2
          rw [← List.append_assoc]
          split at h
          · cases h
            exact ⟨h1, h2.trans (List.sublist_append_left _ _).subperm⟩
          · obtain ⟨h3, h4⟩ := ih h h1
            exact ⟨h3, h4.trans ((List.subperm_append_right _).2 h2)⟩
      · rename_i hc
        rw [if_neg hc]
        exact ih h hl

theorem fundMulti_spec {H : Bytes → Bytes} {a : Currency} {addrs : List UnlockHash} (ha : GoodCurrency a) (ws : MultiMap) {outs : List CoinOutput}
    {c : Currency} (hc : GoodCurrency c) (hco : amount c = total outs) (hl : outs.length ≤ maxInputs)
    (hs : SaneOutputs (outs ++ multiElig H addrs ws)) :
    NoIns (fundMulti H a addrs ws outs c) ∧
    ∀ r, fundMulti H a addrs ws outs c = .ok r →
      GoodCurrency r.2 ∧ amount r.2 = total r.1 ∧
        (total r.1 < amount a → outs.length + (multiElig H addrs ws).length ≤ maxInputs → r.1.Perm (outs ++ multiElig H addrs ws)) := by
  induction ws generalizing outs c with
  | nil =>
    refine ⟨NoIns.ok _, fun r h => ?_⟩
    cases h
    exact ⟨hc, hco, fun _ _ => by simp [multiElig]⟩
  | cons p ws ih =>
    unfold fundMulti
    simp only [bind, Except.bind]
    cases hu : UnlockHash.fromJson H (.str p.1) with
    | error e =>
      have := fromStr_noIns H p.1
      rw [show UnlockHash.fromStr H p.1 = .error e from hu] at this
      exact ⟨by simpa [NoIns] using this, fun r h => by simp at h⟩
    | ok u =>
      rw [multiElig_cons] at hs ⊢
      have hw : walletIn H addrs p = addrs.contains u := by unfold walletIn; rw [hu]
      rw [hw] at hs ⊢
      simp only
      by_cases hin : addrs.contains u = true
      · rw [if_pos hin] at hs ⊢
        rw [if_pos hin]
        have hs1 : SaneOutputs (outs ++ spendable p.2.base) :=
          SaneOutputs.sublist hs (by rw [← List.append_assoc]; exact List.sublist_append_left _ _)
        obtain ⟨d, o, c', h1, h2, h3, h4, h5⟩ := fundFrom_spec ha p.2.base.available p.2.base.unconfAvailable outs c hc hco hl hs1
        rw [h1]
        simp only
        have hsh := fundFrom_shape h1 hl
        simp only at hsh
        cases d with
        | true =>
          refine ⟨NoIns.ok _, fun r h => ?_⟩
          cases h
          exact ⟨h2, h3, fun hlt => by have := h4 rfl; simp only at hlt; omega⟩
        | false =>
          obtain ⟨h5, _⟩ := h5 rfl
          have hs2 : SaneOutputs (o ++ multiElig H addrs ws) := by
            refine ⟨?_, ?_⟩
            · intro co hco
              refine hs.1 co ?_
              rcases List.mem_append.1 hco with h | h
              · rw [← List.append_assoc]
                exact List.mem_append_left _ (hsh.2.subset h)
              · simp [h]
            · have h6 : total o ≤ total (outs ++ spendable p.2.base) := by
                obtain ⟨l, hp, hsub⟩ := hsh.2
                rw [← total_perm hp]; exact total_sublist hsub
              have := hs.2
              rw [← List.append_assoc, total_append] at this
              rw [total_append]; omega
          obtain ⟨i1, i2⟩ := ih h2 h3 hsh.1 hs2
          refine ⟨i1, fun r h => ?_⟩
          obtain ⟨j1, j2, j3⟩ := i2 r h
          refine ⟨j1, j2, fun hlt hle => ?_⟩
          rw [List.length_append] at hle
          have hp : (outs ++ (sortUp p.2.base.available ++ sortDown p.2.base.unconfAvailable)).Perm (outs ++ spendable p.2.base) :=
            ((sortUp_perm _).append (sortDown_perm _)).append_left outs
          have ho : o.Perm (outs ++ spendable p.2.base) := by
            rw [h5, lastN_of_le (by rw [hp.length_eq, List.length_append]; omega)]
            exact hp
          have hlen : o.length = outs.length + (spendable p.2.base).length := by rw [ho.length_eq, List.length_append]
          refine (j3 hlt (by omega)).trans ?_
          rw [← List.append_assoc]
          exact ho.append_right _
      · rw [if_neg hin] at hs ⊢
        rw [if_neg hin]
        exact ih hc hco hl hs

/-- Everything `fund` may use. -/
def elig (H : Bytes → Bytes) (w : Wallets) (addrs ms : List UnlockHash) : List CoinOutput :=
  personalElig H w addrs ++ multiElig H ms w.wallets

theorem fund_ok {H : Bytes → Bytes} {w : Wallets} {a : Currency} {src : Source} {ins : List CoinInput} {rem : Currency} {rf : Option Condition}
    (h : w.fund H a src = .ok (ins, rem, rf)) :
    ∃ addrs ms outs c, w.sources H src = .ok (addrs, ms, rf) ∧ outs.mapM CoinInput.ofOutput = .ok ins ∧ c.sub (.cur a) = .ok rem ∧
      outs.length ≤ maxInputs ∧ outs.Subperm (elig H w addrs ms) ∧
      (GoodCurrency a → SaneOutputs (elig H w addrs ms) → GoodCurrency c ∧ amount c = total outs ∧ amount a ≤ total outs) := by
  have hres : ∀ (outs : List CoinOutput) (c : Currency) rf', fundResult a outs c rf' = .ok (ins, rem, rf) →
      outs.mapM CoinInput.ofOutput = .ok ins ∧ c.sub (.cur a) = .ok rem ∧ rf' = rf := by
    intro outs c rf' h
    unfold fundResult at h
    simp only [bind, Except.bind] at h
    split at h
    · cases h
    · rename_i i hi
      split at h
      · cases h
      · rename_i r hr
        simp only [pure, Except.pure, Except.ok.injEq, Prod.mk.injEq] at h
        obtain ⟨rfl, rfl, rfl⟩ := h
        exact ⟨hi, hr, rfl⟩
  unfold Wallets.fund at h
  simp only [bind, Except.bind] at h
  split at h
  · cases h
  · rename_i r hr
    obtain ⟨addrs, ms, rf'⟩ := r
    simp only [throw, throwThe, MonadExceptOf.throw] at h
    split at h
    · cases h
    · split at h
      · cases h
      · rename_i q hq
        obtain ⟨d, outs, c⟩ := q
        have hp := fundPersonal_shape hq
        simp only at hp h
        split at h
        · rename_i hle
          obtain ⟨h1, h2, rfl⟩ := hres _ _ _ h
          refine ⟨addrs, ms, outs, c, hr, h1, h2, hp.1, hp.2.trans (List.sublist_append_left _ _).subperm, fun ha hs => ?_⟩
          obtain ⟨g1, g2, _⟩ := fundPersonal_spec ha (SaneOutputs.sublist hs (List.sublist_append_left _ _)) hq
          exact ⟨g1, g2, by rw [← g2]; exact (le_amount ha g1).1 hle⟩
        · split at h
          · cases h
          · split at h
            · cases h
            · rename_i q2 hq2
              obtain ⟨outs2, c2⟩ := q2
              simp only at h
              split at h
              · cases h
              · rename_i hge
                obtain ⟨h1, h2, rfl⟩ := hres _ _ _ h
                have hp2 := fundMulti_shape hq2 hp.1
                simp only at hp2
                refine ⟨addrs, ms, outs2, c2, hr, h1, h2, hp2.1, hp2.2.trans ((List.subperm_append_right _).2 hp.2), fun ha hs => ?_⟩
                obtain ⟨g1, g2, _⟩ := fundPersonal_spec ha (SaneOutputs.sublist hs (List.sublist_append_left _ _)) hq
                have hs2 : SaneOutputs (outs ++ multiElig H ms w.wallets) := by
                  refine ⟨?_, ?_⟩
                  · intro co hco
                    refine hs.1 co ?_
                    rcases List.mem_append.1 hco with h | h
                    · exact List.mem_append_left _ (hp.2.subset h)
                    · exact List.mem_append_right _ h
                  · have h6 : total outs ≤ total (personalElig H w addrs) := by
                      obtain ⟨l, hp', hsub⟩ := hp.2
                      rw [← total_perm hp']; exact total_sublist hsub
                    have := hs.2
                    rw [elig, total_append] at this
                    rw [total_append]; omega
                obtain ⟨g3, g4, _⟩ := (fundMulti_spec ha w.wallets g1 g2 hp.1 hs2).2 _ hq2
                refine ⟨g3, g4, ?_⟩
                rw [← g4]
                have := mt (lt_amount g3 ha).2 hge
                simp only at this ⊢
                omega

theorem fund_insufficient {H : Bytes → Bytes} {w : Wallets} {a : Currency} {src : Source} (ha : GoodCurrency a) (hpos : 0 < amount a)
    (hs : ∀ addrs ms rf, w.sources H src = .ok (addrs, ms, rf) → SaneOutputs (elig H w addrs ms))
    (h : w.fund H a src = .error .insufficientFunds) :
    ∃ addrs ms rf, w.sources H src = .ok (addrs, ms, rf) ∧
      (ms = [] → ∀ s : List CoinOutput, s.Subperm (elig H w addrs ms) → s.length ≤ maxInputs → total s < amount a) ∧
      ((elig H w addrs ms).length ≤ maxInputs → total (elig H w addrs ms) < amount a) := by
  unfold Wallets.fund at h
  simp only [bind, Except.bind] at h
  split at h
  · rename_i e he
    have := sources_noIns H w src
    rw [he] at this
    cases h
    exact absurd rfl this
  · rename_i r hr
    obtain ⟨addrs, ms, rf⟩ := r
    have hs := hs _ _ _ hr
    refine ⟨addrs, ms, rf, hr, ?_⟩
    simp only [throw, throwThe, MonadExceptOf.throw] at h
    have hms : ms = [] → elig H w addrs ms = personalElig H w addrs := by
      rintro rfl
      unfold elig multiElig
      have : w.wallets.filter (walletIn H []) = [] := by
        rw [List.filter_eq_nil_iff]
        intro p _
        unfold walletIn
        split <;> simp
      rw [this]; simp
    split at h
    · rename_i hnil
      simp only [List.length_eq_zero_iff] at hnil
      obtain ⟨rfl, rfl⟩ := hnil
      have hpe : elig H w [] [] = [] := by
        rw [hms rfl]
        unfold personalElig
        rw [List.filter_eq_nil_iff]
        intro co _
        unfold addrIn
        split <;> simp
      rw [hpe]
      refine ⟨fun _ s hsub _ => ?_, fun _ => hpos⟩
      rw [List.subperm_nil] at hsub
      rw [hsub]; exact hpos
    · split at h
      · rename_i e he
        exfalso
        cases h
        -- the personal part raises only what computing an address raises
        unfold Wallets.fundPersonal at he
        split at he
        · cases he
        · unfold Wallets.fundIndividual at he
          simp only [bind, Except.bind] at he
          split at he
          · rename_i e' he'
            cases he
            exact filterAddress_noIns H addrs _ he'
          · rename_i conf hconf
            split at he
            · rename_i e' he'
              cases he
              exact filterAddress_noIns H addrs _ he'
            · rename_i unc hunc
              have hz : Currency.set (.int 0) = .ok ⟨some ⟨false, 0, 0⟩⟩ := rfl
              rw [hz] at he
              have hpe : personalElig H w addrs = conf ++ unc := by
                rw [filterAddress_eq hconf, filterAddress_eq hunc, ← List.filter_append]; rfl
              obtain ⟨d, o, c, h1, _⟩ := fundFrom_spec ha conf unc [] _ good_zero (by rw [amount_zero]; rfl) (by simp)
                (by rw [List.nil_append, ← hpe]; exact SaneOutputs.sublist hs (List.sublist_append_left _ _))
              simp only at he
              rw [h1] at he
              cases he
      · rename_i q hq
        obtain ⟨d, outs, c⟩ := q
        have hp := fundPersonal_shape hq
        obtain ⟨g1, g2, g3⟩ := fundPersonal_spec ha (SaneOutputs.sublist hs (List.sublist_append_left _ _)) hq
        simp only at hp h g1 g2 g3
        split at h
        · exact absurd h (fundResult_noIns _ _ _ _)
        · rename_i hlt
          have hlt : total outs < amount a := by
            rw [← g2]
            have := mt (le_amount ha g1).2 hlt
            omega
          obtain ⟨g3, g4⟩ := g3 hlt
          split at h
          · rename_i hz
            rw [List.length_eq_zero_iff] at hz
            rw [hms hz]
            refine ⟨fun _ => g3, fun hle => ?_⟩
            exact g3 _ (List.Subperm.refl _) hle
          · rename_i hz
            rw [List.length_eq_zero_iff] at hz
            have hs2 : SaneOutputs (outs ++ multiElig H ms w.wallets) := by
              refine ⟨?_, ?_⟩
              · intro co hco
                refine hs.1 co ?_
                rcases List.mem_append.1 hco with h | h
                · exact List.mem_append_left _ (hp.2.subset h)
                · exact List.mem_append_right _ h
              · have h6 : total outs ≤ total (personalElig H w addrs) := by
                  obtain ⟨l, hp', hsub⟩ := hp.2
                  rw [← total_perm hp']; exact total_sublist hsub
                have := hs.2
                rw [elig, total_append] at this
                rw [total_append]; omega
            obtain ⟨k1, k2⟩ := fundMulti_spec ha w.wallets g1 g2 hp.1 hs2
            refine ⟨fun hmz => absurd hmz hz, fun hle => ?_⟩
            split at h
            · rename_i e he
              cases h
              exact absurd he k1
            · rename_i q2 hq2
              obtain ⟨outs2, c2⟩ := q2
              obtain ⟨k3, k4, k5⟩ := k2 _ hq2
              simp only at h k3 k4 k5
              split at h
              · rename_i hlt2
                have hlt2 : total outs2 < amount a := by rw [← k4]; exact (lt_amount k3 ha).1 hlt2
                unfold elig at hle ⊢
                rw [List.length_append] at hle
                have q1 := g4 (by omega)
                have q2 := k5 hlt2 (by rw [q1.length_eq]; omega)
                rw [← total_perm (q2.trans (q1.append_right _))]
                exact hlt2
              · exact absurd h (fundResult_noIns _ _ _ _)

end TF
