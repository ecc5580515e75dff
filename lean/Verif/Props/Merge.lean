import Verif.Props.Drain
/-! # C78: combining balances that know multi-signature wallets -/
namespace TF.Props
open TF Spec

theorem mergeAll_disjoint (l : MultiMap) (w : Wallets) (hd : ∀ p ∈ l, p.1 ∉ w.wallets.map (·.1)) (hn : (l.map (·.1)).Nodup) :
    l.foldlM (fun w p => w.mergeMulti p.1 p.2) w = (.ok { w with wallets := w.wallets ++ l } : Res Wallets) := by
  induction l generalizing w with
  | nil => simp [pure, Except.pure]
  | cons p l ih =>
    have hp : w.wallets.get? p.1 = none := by
      cases h : w.wallets.get? p.1 with
      | none => rfl
      | some v => exact absurd (List.mem_map.2 ⟨_, MultiMap.get_mem h, rfl⟩) (hd p List.mem_cons_self)
    have hput : w.wallets.put p.1 p.2 = w.wallets ++ [p] := by
      unfold MultiMap.put
      rw [if_neg]
      intro h
      simp only [List.any_eq_true, decide_eq_true_eq] at h
      obtain ⟨q, hq, e⟩ := h
      exact hd p List.mem_cons_self (List.mem_map.2 ⟨q, hq, e⟩)
    rw [List.map_cons, List.nodup_cons] at hn
    have hstep : w.mergeMulti p.1 p.2 = .ok { w with wallets := w.wallets ++ [p] } := by simp only [Wallets.mergeMulti, hp, hput]
    rw [List.foldlM_cons, hstep]
    show l.foldlM (fun (w : Wallets) (p : Str × MultiBalance) => w.mergeMulti p.1 p.2) _ = _
    rw [ih _ _ hn.2]
    · simp
    · intro q hq
      simp only [List.map_append, List.map_cons, List.map_nil, List.mem_append, List.mem_singleton, not_or]
      refine ⟨hd q (List.mem_cons_of_mem _ hq), fun e => ?_⟩
      exact hn.1 (e ▸ List.mem_map.2 ⟨q, hq, rfl⟩)

/-- **C78** (what holds). Two balances of wallets that know no common multi-signature wallet are combined: the personal balances are
merged, the multi-signature wallets of both are kept unchanged. -/
theorem C78_combine_partial (H : Bytes → Bytes) (w o : Wallets) (m : Balance) (hm : w.base.merge o.base = .ok m)
    (hd : ∀ p ∈ o.wallets, p.1 ∉ w.wallets.map (·.1)) (hn : (o.wallets.map (·.1)).Nodup) :
    (AnyBalance.wallets w).add H (some (.wallets o)) = .ok (.wallets ⟨m, w.wallets ++ o.wallets⟩) := by
  simp only [AnyBalance.add, Wallets.add, hm, bind, Except.bind]
  rw [mergeAll_disjoint o.wallets { w with base := m } hd hn]
  rfl

/-- **C78** (finding). Whenever both balances know a common multi-signature wallet, combining them raises `AttributeError`; so does adding
anything to the balance of a multi-signature wallet. -/
theorem C78_combine_false (H : Bytes → Bytes) :
    (∀ (w o : Wallets) (m : Balance), w.base.merge o.base = .ok m → (∃ p ∈ o.wallets, p.1 ∈ w.wallets.map (·.1)) →
      (AnyBalance.wallets w).add H (some (.wallets o)) = .error .attributeError) ∧
    (∀ (m : MultiBalance) (other : AnyBalance) (a : Str), m.address H = .ok a →
      (AnyBalance.multi m).add H (some other) = .error .attributeError) := by
  constructor
  · intro w o m hm hp
    simp only [AnyBalance.add, Wallets.add, hm, bind, Except.bind]
    have key : ∀ (l : MultiMap) (w : Wallets), (∃ p ∈ l, p.1 ∈ w.wallets.map (·.1)) →
        l.foldlM (fun w p => w.mergeMulti p.1 p.2) w = (.error .attributeError : Res Wallets) := by
      intro l
      induction l with
      | nil => intro w h; simp at h
      | cons p l ih =>
        intro w h
        rw [List.foldlM_cons]
        cases hg : w.wallets.get? p.1 with
        | some v =>
          rw [show w.mergeMulti p.1 p.2 = .error .attributeError by simp only [Wallets.mergeMulti, hg]]
          rfl
        | none =>
          rw [show w.mergeMulti p.1 p.2 = .ok { w with wallets := w.wallets.put p.1 p.2 } by simp only [Wallets.mergeMulti, hg]]
          show l.foldlM (fun (w : Wallets) (p : Str × MultiBalance) => w.mergeMulti p.1 p.2) _ = _
          apply ih
          obtain ⟨q, hq, hin⟩ := h
          rcases List.mem_cons.1 hq with rfl | hq
          · exact absurd hin (MultiMap.get_none hg)
          · refine ⟨q, hq, ?_⟩
            obtain ⟨x, hx, e⟩ := List.mem_map.1 hin
            by_cases hxp : x.1 = p.1
            · exact absurd (List.mem_map.2 ⟨x, hx, hxp⟩) (MultiMap.get_none hg)
            · exact List.mem_map.2 ⟨x, MultiMap.put_other hx hxp, e⟩
    rw [key o.wallets { w with base := m } hp]
  · intro m other a ha
    have h0 : Wallets.add H {} (.multi m) = .ok { wallets := [(a, m)] } := by
      simp [Wallets.add, ha, bind, Except.bind, Wallets.mergeMulti, MultiMap.get?, MultiMap.put]
    have h1 : Wallets.add H { wallets := [(a, m)] } (.multi m) = .error .attributeError := by
      simp [Wallets.add, ha, bind, Except.bind, Wallets.mergeMulti, MultiMap.get?]
    cases other with
    | multi m' => simp [AnyBalance.add, ha, bind, Except.bind, throw, throwThe, MonadExceptOf.throw]
    | wallet b => simp only [AnyBalance.add, bind, Except.bind, h0, h1]
    | wallets w => simp only [AnyBalance.add, bind, Except.bind, h0, h1]

/-- Wallets with `coinM`, and with `coinN 0`: different multi-signature wallets. -/
example : ∃ m, (walletsRun toyHash [.report coinM true false]).base.merge (walletsRun toyHash [.report (coinN 0) true false]).base = .ok m ∧
    (∀ p ∈ (walletsRun toyHash [.report (coinN 0) true false]).wallets, p.1 ∉ (walletsRun toyHash [.report coinM true false]).wallets.map (·.1)) := by
  exact ⟨{}, by decide +kernel, by decide +kernel⟩
example : ∃ m, (walletsRun toyHash [.report coinM true false]).base.merge (walletsRun toyHash [.report coinA true false, .report coinM true false]).base = .ok m ∧
    ∃ p ∈ (walletsRun toyHash [.report coinA true false, .report coinM true false]).wallets, p.1 ∈ (walletsRun toyHash [.report coinM true false]).wallets.map (·.1) := by
  refine ⟨(match (walletsRun toyHash [.report coinM true false]).base.merge (walletsRun toyHash [.report coinA true false, .report coinM true false]).base with
    | .ok m => m
    | .error _ => {}), by decide +kernel, by decide +kernel⟩
example : ∃ a, (⟨[addrOf key1], 1, {}⟩ : MultiBalance).address toyHash = .ok a := ⟨_, rfl⟩

end TF.Props
