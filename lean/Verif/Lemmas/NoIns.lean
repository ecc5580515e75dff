import Verif.Model.Balance
/-! # Which functions cannot raise `InsufficientFunds` -/
namespace TF

/-- Does not raise `InsufficientFunds`. -/
def NoIns {α : Type} (x : Res α) : Prop := x ≠ .error .insufficientFunds

theorem NoIns.ok {α : Type} (a : α) : NoIns (.ok a : Res α) := by simp [NoIns]
theorem NoIns.bind {α β : Type} {x : Res α} {f : α → Res β} (h : NoIns x) (hf : ∀ a, NoIns (f a)) : NoIns (x >>= f) := by
  cases x with
  | error e =>
    intro h2
    apply h
    simp only [Bind.bind, Except.bind, Except.error.injEq] at h2
    rw [h2]
  | ok a => exact hf a

theorem NoIns.mapM {α β : Type} {f : α → Res β} (l : List α) (h : ∀ a ∈ l, NoIns (f a)) : NoIns (l.mapM f) := by
  induction l with
  | nil => simp [NoIns, pure, Except.pure]
  | cons a l ih =>
    rw [List.mapM_cons]
    refine (h a List.mem_cons_self).bind fun b => ?_
    refine (ih fun x hx => h x (List.mem_cons_of_mem _ hx)).bind fun bs => ?_
    simp [NoIns, pure, Except.pure]

/-- An encoder call that does not raise `InsufficientFunds`. -/
def OutNoIns (o : Out) : Prop := o.err ≠ some .insufficientFunds

theorem OutNoIns.res {o : Out} (h : OutNoIns o) : NoIns o.toRes := by
  unfold NoIns Out.toRes
  unfold OutNoIns at h
  cases he : o.err with
  | none => simp
  | some e =>
    rw [he] at h
    intro hh
    apply h
    simp only [Except.error.injEq] at hh
    rw [hh]

theorem OutNoIns.andThen {a b : Out} (ha : OutNoIns a) (hb : OutNoIns b) : OutNoIns (a.andThen b) := by
  unfold Out.andThen
  split
  · exact hb
  · exact ha

theorem outNoIns_ok (b : Bytes) : OutNoIns (.ok b) := by simp [OutNoIns, Out.ok]

theorem siaInt_noIns (v : Int) : OutNoIns (siaInt v) := by
  unfold siaInt OutNoIns
  split
  · simp [Out.raise]
  · split <;> simp [Out.raise, Out.ok]

theorem rivInt_noIns (n : Nat) (v : Int) : OutNoIns (rivInt n v) := by
  unfold rivInt OutNoIns
  split
  · simp [Out.raise]
  · split <;> simp [Out.raise, Out.ok]

theorem rivSliceLen_noIns (n : Nat) : OutNoIns (rivSliceLen n) := by
  unfold rivSliceLen
  repeat' split
  all_goals first | exact rivInt_noIns _ _ | simp [OutNoIns, Out.raise]

theorem uh_sia_noIns (u : UnlockHash) : OutNoIns u.sia := by
  unfold UnlockHash.sia
  refine OutNoIns.andThen ?_ (outNoIns_ok _)
  unfold siaAddByte
  simp only
  split <;> simp [OutNoIns, Out.raise, Out.ok]

theorem uh_riv_noIns (u : UnlockHash) : OutNoIns u.riv := by
  unfold UnlockHash.riv
  exact (rivInt_noIns 1 _).andThen (outNoIns_ok _)

theorem rivAddSeq_noIns (vs : List Val) (h : ∀ v ∈ vs, OutNoIns (rivAdd v)) : OutNoIns (rivAddSeq vs) := by
  induction vs with
  | nil => simp [rivAddSeq, OutNoIns, Out.ok]
  | cons v vs ih =>
    unfold rivAddSeq
    exact (h v List.mem_cons_self).andThen (ih fun x hx => h x (List.mem_cons_of_mem _ hx))

theorem siaEncode_one_noIns {v : Val} (h : OutNoIns (siaAdd v)) : NoIns (siaEncode [v]) := by
  unfold siaEncode siaAddSeq
  refine (h.andThen ?_).res
  simp [siaAddSeq, OutNoIns, Out.ok]

theorem binRiv_noIns (d : BinData) : OutNoIns d.riv := by
  unfold BinData.riv
  split
  · exact (rivSliceLen_noIns _).andThen (outNoIns_ok _)
  · exact outNoIns_ok _

theorem unlockhash_noIns (H : Bytes → Bytes) (c : Condition) : NoIns (c.unlockhash H) := by
  induction c with
  | nil => exact NoIns.ok _
  | unlockHash u => exact NoIns.ok _
  | atomicSwap s r hs t =>
    unfold Condition.unlockhash
    refine NoIns.bind (OutNoIns.res ?_) fun data => NoIns.bind (OutNoIns.res ?_) fun e => NoIns.ok _
    · unfold atomicSwapRiv
      apply rivAddSeq_noIns
      intro v hv
      simp only [List.mem_cons, List.not_mem_nil, or_false] at hv
      rcases hv with rfl | rfl | rfl | rfl
      · exact uh_riv_noIns _
      · exact uh_riv_noIns _
      · exact binRiv_noIns _
      · exact rivInt_noIns _ _
    · exact (siaInt_noIns _).andThen (outNoIns_ok _)
  | lockTime l c ih => exact ih
  | multiSig owners n =>
    unfold Condition.unlockhash
    refine NoIns.bind ?_ fun leaves => NoIns.bind ?_ fun r => NoIns.ok _
    · unfold multiSigLeaves
      refine NoIns.bind (siaEncode_one_noIns (siaInt_noIns _)) fun n => NoIns.bind (NoIns.mapM _ fun u _ => siaEncode_one_noIns (uh_sia_noIns u)) fun ls =>
        NoIns.bind (siaEncode_one_noIns (siaInt_noIns _)) fun r => NoIns.ok _
    · unfold merkleRoot
      split
      · simp [NoIns]
      · exact NoIns.ok _

theorem hashNew_noIns (s : Str) : NoIns (Hash.new (.str s)) := by
  unfold Hash.new
  refine NoIns.bind ?_ fun d => NoIns.ok _
  simp only [BinData.new, show ¬ ((32 : Int) < 0) by omega, if_false, show ((32 : Int) ≠ 0) by omega, if_true, ne_eq, not_false_eq_true]
  unfold BinData.set
  refine NoIns.bind ?_ fun b => ?_
  · unfold BVal.norm
    simp only
    split <;> simp [NoIns]
  · simp only
    split <;> simp [NoIns, throw, throwThe, MonadExceptOf.throw, pure, Except.pure]

theorem fromStr_noIns (H : Bytes → Bytes) (s : Str) : NoIns (UnlockHash.fromStr H s) := by
  unfold UnlockHash.fromStr
  split
  · simp [NoIns]
  · split
    · simp [NoIns]
    · split
      · rename_i e he
        have := hashNew_noIns ((s.drop 2).take 64)
        rw [he] at this
        simpa [NoIns] using this
      · repeat' split
        all_goals simp [NoIns]

theorem multiSigNew_noIns (H : Bytes → Bytes) (owners : List OwnerArg) (n : CountArg) : NoIns (multiSigNew H owners n) := by
  unfold multiSigNew
  refine NoIns.bind (NoIns.mapM _ fun o _ => ?_) fun uhs => NoIns.bind ?_ fun k => NoIns.ok _
  · cases o with
    | str s => exact fromStr_noIns H s
    | none => exact NoIns.ok _
    | uh u => exact NoIns.ok _
    | other => simp [NoIns, OwnerArg.resolve]
  · cases n <;> simp [NoIns, CountArg.resolve]

theorem ofOutput_noIns (co : CoinOutput) : NoIns (CoinInput.ofOutput co) := by
  unfold CoinInput.ofOutput
  refine NoIns.bind ?_ fun f => NoIns.ok _
  unfold fulfillmentFromCondition
  repeat' split
  all_goals simp [NoIns]

theorem sub_noIns (a b : Currency) : NoIns (a.sub (.cur b)) := by
  unfold Currency.sub
  refine NoIns.bind (NoIns.ok _) fun c => ?_
  unfold Currency.set Currency.checkDec
  simp only
  repeat' split
  all_goals simp [NoIns]

theorem fundResult_noIns (a : Currency) (outs : List CoinOutput) (c : Currency) (rf : Option Condition) : NoIns (fundResult a outs c rf) := by
  unfold fundResult
  exact NoIns.bind (NoIns.mapM _ fun co _ => ofOutput_noIns co) fun ins => NoIns.bind (sub_noIns _ _) fun r => NoIns.ok _

theorem filterAddress_noIns (H : Bytes → Bytes) (addrs : List UnlockHash) (l : List CoinOutput) : NoIns (filterAddress H addrs l) := by
  induction l with
  | nil => exact NoIns.ok _
  | cons co l ih =>
    unfold filterAddress
    exact NoIns.bind (unlockhash_noIns H _) fun u => ih.bind fun r => NoIns.ok _

theorem splitSource_noIns (l : List UnlockHash) : NoIns (splitSource l) := by
  induction l with
  | nil => exact NoIns.ok _
  | cons u l ih =>
    unfold splitSource
    simp only
    split
    · simp [NoIns, throw, throwThe, MonadExceptOf.throw, bind, Except.bind]
    · exact ih.bind fun r => NoIns.ok _

theorem suggestRefund_noIns (H : Bytes → Bytes) (w : Wallets) (u : UnlockHash) : NoIns (w.suggestRefund H u) := by
  unfold Wallets.suggestRefund
  split
  · exact NoIns.ok _
  · split
    · exact NoIns.ok _
    · exact NoIns.bind (multiSigNew_noIns H _ _) fun c => NoIns.ok _

theorem resolve_noIns (H : Bytes → Bytes) (s : SourceArg) : NoIns (s.resolve H) := by
  cases s with
  | str s => exact fromStr_noIns H s
  | uh u => exact NoIns.ok _
  | other => simp [NoIns, SourceArg.resolve]

theorem sources_noIns (H : Bytes → Bytes) (w : Wallets) (src : Source) : NoIns (w.sources H src) := by
  cases src with
  | none =>
    exact NoIns.bind (NoIns.mapM _ fun co _ => unlockhash_noIns H _) fun a => NoIns.bind (NoIns.mapM _ fun co _ => unlockhash_noIns H _) fun b => NoIns.ok _
  | one s =>
    exact NoIns.bind (resolve_noIns H s) fun u => NoIns.bind (splitSource_noIns _) fun pm => NoIns.bind (suggestRefund_noIns H w u) fun r => NoIns.ok _
  | list l =>
    refine NoIns.bind (NoIns.mapM _ fun s _ => resolve_noIns H s) fun us => NoIns.bind (splitSource_noIns _) fun pm => ?_
    simp only
    split
    · exact NoIns.bind (suggestRefund_noIns H w _) fun r => NoIns.ok _
    · simp [NoIns, throw, throwThe, MonadExceptOf.throw]
    · exact NoIns.ok _

end TF
