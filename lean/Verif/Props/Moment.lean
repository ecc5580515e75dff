import Verif.Spec.Moment
import Verif.Props.Float
/-! # C132: locks given as timedelta or datetime objects -/
namespace TF.Props
open TF Spec

/-! ## The local clock -/

set_option maxHeartbeats 2000000 in
/-- Of the timestamps at which the clock shows a time, `fold` chooses the first or the last. -/
theorem localToSeconds_shown {z : Zone} {e T a b : Int} (hc : OneChange z e T a b) (fold : Bool)
    (h : ∀ e', |e' - e| ≤ 2 * 86400 → e' + z.shift e' = e + z.shift e → if fold then e' ≤ e else e ≤ e') :
    localToSeconds z (e + z.shift e) fold = e := by
  obtain ⟨ha, hb, hs⟩ := hc
  rw [abs_lt] at ha hb
  have hsh : ∀ u, e - 3 * 86400 ≤ u → u ≤ e + 3 * 86400 → (u < T ∧ z.shift u = a) ∨ (T ≤ u ∧ z.shift u = b) := by
    intro u h1 h2
    have := hs u (abs_le.2 ⟨by omega, by omega⟩)
    split at this
    · exact .inl ⟨by assumption, this⟩
    · exact .inr ⟨by omega, this⟩
  have he := hsh e (by omega) (by omega)
  obtain ⟨s, es⟩ : ∃ s, z.shift e = s := ⟨_, rfl⟩
  rw [es] at he h ⊢
  have hsb : -43200 < s ∧ s < 43200 := by omega
  have hh : ∀ e', e - 2 * 86400 ≤ e' → e' ≤ e + 2 * 86400 → e' + z.shift e' = e + s → if fold then e' ≤ e else e ≤ e' :=
    fun e' h1 h2 h3 => h e' (abs_le.2 ⟨by omega, by omega⟩) h3
  have h1 := hsh (e + s) (by omega) (by omega)
  obtain ⟨x, ex⟩ : ∃ x, z.shift (e + s) = x := ⟨_, rfl⟩
  rw [ex] at h1
  have hxb : -43200 < x ∧ x < 43200 := by omega
  have h2 := hsh (e + s - x) (by omega) (by omega)
  have g2 := hh (e + s - x) (by omega) (by omega)
  obtain ⟨y, ey⟩ : ∃ y, z.shift (e + s - x) = y := ⟨_, rfl⟩
  rw [ey] at h2 g2
  have hyb : -43200 < y ∧ y < 43200 := by omega
  have h3 := hsh (e + s - y) (by omega) (by omega)
  have g3 := hh (e + s - y) (by omega) (by omega)
  have h4 := hsh (e + s - x + 86400) (by omega) (by omega)
  have h5 := hsh (e + s - x - 86400) (by omega) (by omega)
  obtain ⟨v, ev⟩ : ∃ v, z.shift (e + s - x + 86400) = v := ⟨_, rfl⟩
  obtain ⟨w, ew⟩ : ∃ w, z.shift (e + s - x - 86400) = w := ⟨_, rfl⟩
  rw [ev] at h4
  rw [ew] at h5
  have hvb : -43200 < v ∧ v < 43200 := by omega
  have hwb : -43200 < w ∧ w < 43200 := by omega
  have g4 := hh (e + s - v) (by omega) (by omega)
  have h6 := hsh (e + s - v) (by omega) (by omega)
  have g5 := hh (e + s - w) (by omega) (by omega)
  have h7 := hsh (e + s - w) (by omega) (by omega)
  have r1 : e + s + x - (e + s) = x := by omega
  have r2 : ∀ k, e + s - x + 86400 + k - (e + s - x + 86400) = k := fun k => by omega
  have r3 : ∀ k, e + s - x - 86400 + k - (e + s - x - 86400) = k := fun k => by omega
  have r4 : e + s - x + y - (e + s - x) = y := by omega
  unfold localToSeconds Zone.local
  simp only [ex, r1, ey]
  cases fold
  · simp only [Bool.false_eq_true, if_false] at *
    simp only [ew, r3, r4]
    clear h4 h6 g4 hvb r1 r2 r3 r4 hs hsh hh h ex ey ev ew es
    by_cases t1 : e + s - x + y = e + s
    · have t2 : y = x := by omega
      subst t2
      simp only [t1, true_and, if_true]
      split_ifs <;> omega
    · clear g2
      simp only [t1, false_and, if_false]
      split_ifs <;> omega
  · simp only [if_true] at *
    simp only [ev, r2, r4]
    clear h5 h7 g5 hwb r1 r2 r3 r4 hs hsh hh h ex ey ev ew es
    by_cases t1 : e + s - x + y = e + s
    · have t2 : y = x := by omega
      subst t2
      simp only [t1, true_and, if_true]
      split_ifs <;> omega
    · clear g2
      simp only [t1, false_and, if_false]
      split_ifs <;> omega

/-- A time the clock skips: with `fold` unset it is taken by the clock before the change, with `fold` set by the clock after it. -/
theorem localToSeconds_skipped {z : Zone} {t T a b : Int} (hc : OneChange z T T a b) (h1 : T + a ≤ t) (h2 : t < T + b) (fold : Bool) :
    localToSeconds z t fold = t - if fold then b else a := by
  obtain ⟨ha, hb, hs⟩ := hc
  rw [abs_lt] at ha hb
  have hsh : ∀ u, T - 3 * 86400 ≤ u → u ≤ T + 3 * 86400 → (u < T ∧ z.shift u = a) ∨ (T ≤ u ∧ z.shift u = b) := by
    intro u h1 h2
    have := hs u (abs_le.2 ⟨by omega, by omega⟩)
    split at this
    · exact .inl ⟨by assumption, this⟩
    · exact .inr ⟨by omega, this⟩
  have k1 := hsh t (by omega) (by omega)
  obtain ⟨x, ex⟩ : ∃ x, z.shift t = x := ⟨_, rfl⟩
  rw [ex] at k1
  have k2 := hsh (t - x) (by omega) (by omega)
  obtain ⟨y, ey⟩ : ∃ y, z.shift (t - x) = y := ⟨_, rfl⟩
  rw [ey] at k2
  have k3 := hsh (t - y) (by omega) (by omega)
  have r1 : t + x - t = x := by omega
  have r4 : t - x + y - (t - x) = y := by omega
  have hne : t - x + y ≠ t := by omega
  unfold localToSeconds Zone.local
  simp only [ex, r1, ey, hne, false_and, if_false, r4]
  cases fold
  · simp only [Bool.false_eq_true, if_false]
    split_ifs <;> omega
  · simp only [if_true]
    split_ifs <;> omega

/-! ## Fractions of a second -/

theorem fl_micro {k : Nat} (hk : k < 10 ^ 6) : ∃ d : ℚ, fl ((k : ℚ) / 10 ^ 6) = k / 10 ^ 6 + d ∧ |d| ≤ 1 / 2 ^ 53 ∧ (k = 0 → d = 0) := by
  refine ⟨fl ((k : ℚ) / 10 ^ 6) - k / 10 ^ 6, by ring, ?_, ?_⟩
  · refine (fl_near (by positivity)).trans ?_
    have : (k : ℚ) / 10 ^ 6 ≤ 1 := by
      rw [div_le_one (by norm_num)]
      exact_mod_cast hk.le
    gcongr
  · rintro rfl
    simp [fl]

/-- The microseconds of a moment do not change its second. -/
theorem micro_dropped {e : Int} {k : Nat} (h0 : 0 ≤ e) (h1 : e < 2 ^ 32) (hk : k < 10 ^ 6) :
    truncInt (let x : ℚ := e + fl (k / 10 ^ 6); if x < 0 then -fl (-x) else fl x) = e := by
  obtain ⟨d, e1, d1, d2⟩ := fl_micro hk
  rw [e1]
  have d1 := abs_le.1 d1
  have he : (0 : ℚ) ≤ e := by exact_mod_cast h0
  have he2 : (e : ℚ) + 1 ≤ 2 ^ 32 := by exact_mod_cast h1
  by_cases hz : k = 0
  · obtain ⟨n, rfl⟩ := Int.eq_ofNat_of_zero_le h0
    have hn := fl_whole (n := n) (by omega)
    have hx : ((Int.ofNat n : Int) : ℚ) + ((k : ℚ) / 10 ^ 6 + d) = (n : ℚ) := by rw [hz, d2 hz]; simp
    have hx' : (((n : Nat) : Int) : ℚ) + ((k : ℚ) / 10 ^ 6 + d) = (n : ℚ) := hx
    simp only [hx']
    rw [if_neg (by have : (0 : ℚ) ≤ n := by positivity
                   linarith), hn]
    unfold truncInt
    rw [if_neg (by have : (0 : ℚ) ≤ n := by positivity
                   linarith)]
    simp
  · have k1 : (1 : ℚ) / 10 ^ 6 ≤ (k : ℚ) / 10 ^ 6 := by
      have : (1 : ℚ) ≤ k := by exact_mod_cast Nat.pos_of_ne_zero hz
      gcongr
    have k2 : (k : ℚ) / 10 ^ 6 ≤ (10 ^ 6 - 1) / 10 ^ 6 := by
      have : (k : ℚ) + 1 ≤ 10 ^ 6 := by exact_mod_cast hk
      gcongr
      linarith
    obtain ⟨x, hx⟩ : ∃ x : ℚ, (e : ℚ) + ((k : ℚ) / 10 ^ 6 + d) = x := ⟨_, rfl⟩
    simp only [hx]
    have b1 : (0 : ℚ) ≤ x := by
      rw [← hx]
      have : (1 : ℚ) / 2 ^ 53 ≤ 1 / 10 ^ 6 := by norm_num
      linarith
    have b2 : x ≤ 2 ^ 32 := by
      rw [← hx]
      have : (1 : ℚ) / 2 ^ 53 ≤ 1 / 10 ^ 6 := by norm_num
      linarith
    have hf := abs_le.1 (fl_near b1)
    have hfn := fl_nonneg b1
    have b3 : x / 2 ^ 53 ≤ 2 ^ 32 / 2 ^ 53 := by gcongr
    rw [if_neg (by linarith)]
    unfold truncInt
    rw [if_neg (by linarith), Int.floor_eq_iff]
    have : (2 : ℚ) ^ 32 / 2 ^ 53 + 1 / 2 ^ 53 < 1 / 10 ^ 6 := by norm_num
    constructor <;> linarith

theorem truncInt_total {us : Int} (h0 : 0 ≤ us) (h : us < 2 ^ 53) : truncInt (totalSeconds us) = us / 10 ^ 6 ∧ truncInt (totalSeconds (-us)) = -(us / 10 ^ 6) := by
  have hq : (0 : ℚ) ≤ (us : ℚ) / 10 ^ 6 := by
    have : (0 : ℚ) ≤ us := by exact_mod_cast h0
    positivity
  have hf := fl_nonneg hq
  have hx := seconds_exact h0 h
  have e1 : totalSeconds us = fl ((us : ℚ) / 10 ^ 6) := by
    unfold totalSeconds
    simp only
    rw [if_neg (by linarith)]
  constructor
  · rw [e1]
    unfold truncInt
    rw [if_neg (by linarith)]
    exact hx
  · have e2 : totalSeconds (-us) = -fl ((us : ℚ) / 10 ^ 6) := by
      unfold totalSeconds
      have : ((-us : Int) : ℚ) / 10 ^ 6 = -((us : ℚ) / 10 ^ 6) := by push_cast; ring
      simp only [this, neg_neg]
      by_cases hz : (us : ℚ) / 10 ^ 6 = 0
      · rw [hz]; simp [fl]
      · rw [if_pos]
        have := lt_of_le_of_ne hq (Ne.symm hz)
        linarith
    rw [e2]
    unfold truncInt
    by_cases hz : fl ((us : ℚ) / 10 ^ 6) = 0
    · rw [hz] at hx ⊢
      simp at hx ⊢
      omega
    · rw [if_pos (by have := lt_of_le_of_ne hf (Ne.symm hz); linarith), neg_neg, hx]

/-! ## C132 -/

/-- **C132** (timedelta): a lock given as a `timedelta` of less than 2^53 microseconds (285 years) is that many whole seconds after — or, if it is negative,
before — the current time. -/
theorem C132_timedelta (z : Zone) (now us : Int) (h0 : 0 ≤ us) (h : us < 2 ^ 53) :
    outputLock (lockOfTime z now (.delta us)) = .ok (now + us / 10 ^ 6) ∧ outputLock (lockOfTime z now (.delta (-us))) = .ok (now - us / 10 ^ 6) := by
  obtain ⟨h1, h2⟩ := truncInt_total h0 h
  unfold lockOfTime
  simp only [h1, h2]
  exact ⟨rfl, rfl⟩

example : outputLock (lockOfTime (fixedZone 0) 1570000000 (.delta 5400999999)) = .ok 1570005400 :=
  (C132_timedelta _ _ 5400999999 (by decide) (by decide)).1.trans (by decide)

/-- **C132** (text and timedelta): a lock given as `+` and a duration is the same as the lock given as the `timedelta` of it. -/
theorem C132_same_delta (z : Zone) (cal : Calendar) (now : Int) (w : PointWritten) (hw : w.Good) (hne : w.text ≠ []) (m : Nat) (hm : 10 ^ 6 * w.total = m)
    (hlim : m < 2 ^ 51 - 1) : lockOfText pySeconds cal now ('+' :: w.text) = .ok (lockOfTime z now (.delta m)) := by
  have h1 := C131_exact w hw hne m hm hlim
  have h : lockText pySeconds cal now ('+' :: w.text) = .ok (now + ((m / 10 ^ 6 : Nat) : Int)) := by
    unfold lockText
    have : lstrip isPySpace ('+' :: w.text) = '+' :: w.text := lstrip_spaces 0 (by decide) _
    rw [this]
    simp only [if_true, h1]
    rfl
  unfold lockOfText
  rw [h]
  unfold lockOfTime
  have := (truncInt_total (us := m) (by omega) (by omega)).1
  simp only [this]
  rfl

example : hourAndHalf.Good ∧ hourAndHalf.text ≠ [] ∧ 10 ^ 6 * hourAndHalf.total = (5400250000 : Nat) := ⟨hourAndHalf_good, by decide, by decide +kernel⟩

theorem moment_lock {z : Zone} {e T a b : Int} {c : Civil} (hc : OneChange z e T a b) (he : ClockAt z e c) (h0 : 0 ≤ e) (h1 : e < 2 ^ 32) (now : Int) {k : Nat}
    (hk : k < 10 ^ 6) (fold : Bool) (h : ∀ e', ClockAt z e' c → if fold then e' ≤ e else e ≤ e') :
    outputLock (lockOfTime z now (.moment ⟨c, k, none, fold⟩)) = .ok e := by
  obtain ⟨g1, g2, g3⟩ := he
  have hl : localToSeconds z (civilSeconds c) fold = e := by
    rw [civilSeconds_eq g1.1, g3]
    exact localToSeconds_shown hc fold fun e' _ hs => h e' ⟨g1, g2, g3.trans hs.symm⟩
  unfold lockOfTime Moment.timestamp
  simp only [hl, micro_dropped h0 h1 hk]
  rfl

/-- **C132** (datetime): a lock given as a `datetime` without time zone is the timestamp at which the local clock shows it, until the year 2106, the
microseconds dropped; if the clock is set back and shows it twice, it is the first one unless `fold` is set. -/
theorem C132_datetime {z : Zone} {e T a b : Int} {c : Civil} (hc : OneChange z e T a b) (h0 : 0 ≤ e) (h1 : e < 2 ^ 32) (now : Int) {k : Nat} (hk : k < 10 ^ 6) :
    (ShownFirst z e c → outputLock (lockOfTime z now (.moment ⟨c, k, none, false⟩)) = .ok e) ∧
    (ShownLast z e c → outputLock (lockOfTime z now (.moment ⟨c, k, none, true⟩)) = .ok e) :=
  ⟨fun h => moment_lock hc h.1 h0 h1 now hk false (by simpa using h.2), fun h => moment_lock hc h.1 h0 h1 now hk true (by simpa using h.2)⟩

/-- The clock is set back by an hour, from two hours ahead of UTC to one. -/
def autumn : Zone := ⟨fun u => if u < 1572138000 then 7200 else 3600, fun l => l - 3600⟩

theorem autumn_change (e : Int) : OneChange autumn e 1572138000 7200 3600 := ⟨by decide, by decide, fun _ _ => rfl⟩

/-- 2019/10/27 02:30. -/
def twice : Civil := ⟨2019, 10, 27, 2, 30, 0⟩

example : ShownFirst autumn 1572136200 twice ∧ ShownLast autumn 1572139800 twice := by
  have hs : sinceEpoch twice = 1572143400 := by decide +kernel
  have key : ∀ e' : Int, ClockAt autumn e' twice → e' = 1572136200 ∨ e' = 1572139800 := by
    intro e' h
    have h := h.2.2
    rw [hs] at h
    have : (1572143400 : Int) = e' + if e' < 1572138000 then 7200 else 3600 := h
    split at this <;> omega
  refine ⟨⟨⟨by decide +kernel, by decide, by rw [hs]; decide⟩, fun e' h => ?_⟩, ⟨by decide +kernel, by decide, by rw [hs]; decide⟩, fun e' h => ?_⟩
  · rcases key e' h with h | h <;> omega
  · rcases key e' h with h | h <;> omega

/-- **C132** (skipped times): a time of the day that the clock skips when it is set forward is counted by the clock as it was before, with `fold` set by
the clock as it was afterwards. -/
theorem C132_skipped {z : Zone} {T a b : Int} {c : Civil} (hc : OneChange z T T a b) (hr : RealMoment c) (h1 : T + a ≤ sinceEpoch c)
    (h2 : sinceEpoch c < T + b) (h0 : 86400 ≤ T) (h3 : T < 2 ^ 31) (now : Int) {k : Nat} (hk : k < 10 ^ 6) (fold : Bool) :
    outputLock (lockOfTime z now (.moment ⟨c, k, none, fold⟩)) = .ok (sinceEpoch c - if fold then b else a) := by
  have hl : localToSeconds z (civilSeconds c) fold = sinceEpoch c - if fold then b else a := by
    rw [civilSeconds_eq hr.1]
    exact localToSeconds_skipped hc h1 h2 fold
  have ha := abs_lt.1 hc.1
  have hb := abs_lt.1 hc.2.1
  obtain ⟨e, he⟩ : ∃ e : Int, sinceEpoch c - (if fold then b else a) = e := ⟨_, rfl⟩
  rw [he] at hl ⊢
  have g0 : 0 ≤ e := by split at he <;> omega
  have g1 : e < 2 ^ 32 := by split at he <;> omega
  unfold lockOfTime Moment.timestamp
  simp only [hl, micro_dropped g0 g1 hk]
  rfl

/-- The clock is set forward by an hour. -/
def spring : Zone := ⟨fun u => if u < 1553994000 then 3600 else 7200, fun l => l - 3600⟩

example : OneChange spring 1553994000 1553994000 3600 7200 ∧ RealMoment ⟨2019, 3, 31, 2, 30, 0⟩ ∧
    (1553994000 : Int) + 3600 ≤ sinceEpoch ⟨2019, 3, 31, 2, 30, 0⟩ ∧ sinceEpoch ⟨2019, 3, 31, 2, 30, 0⟩ < 1553994000 + 7200 :=
  ⟨⟨by decide, by decide, fun _ _ => rfl⟩, by decide +kernel, by decide +kernel, by decide +kernel⟩

/-- **C132** (aware datetime): a lock given as a `datetime` with a time zone is the timestamp of that moment, whole seconds, wherever the program runs. -/
theorem C132_aware (z : Zone) (now : Int) (c : Civil) (hr : RealMoment c) (k : Nat) (o : Int) (fold : Bool)
    (h0 : 0 ≤ sinceEpoch c * 10 ^ 6 + k - o) (h : sinceEpoch c * 10 ^ 6 + k - o < 2 ^ 53) :
    outputLock (lockOfTime z now (.moment ⟨c, k, some o, fold⟩)) = .ok ((sinceEpoch c * 10 ^ 6 + k - o) / 10 ^ 6) := by
  unfold lockOfTime Moment.timestamp
  simp only [civilSeconds_eq hr.1, (truncInt_total h0 h).1]
  rfl

example : RealMoment twice ∧ sinceEpoch twice * 10 ^ 6 + (5 : Nat) - 7200000000 = 1572136200000005 := ⟨by decide +kernel, by decide +kernel⟩

/-- **C132** (text and datetime): a lock given as a date is the same as the lock given as the `datetime` of it, if the local clock shows it once. -/
theorem C132_same_date (F : FloatSeconds) (G : FloatDelta) {z : Zone} (hz : LawfulZone z) {clock now : Int} {c0 : Civil} (hc0 : ClockAt z clock c0)
    (hy : 1000 ≤ c0.year ∧ c0.year ≤ 9999) {d : DayText} {t : ClockText} (hd : d.Good) (ht : t.Good) {c : Civil} (hdc : d.Is c0.year c) (htc : t.Is c)
    {e T a b : Int} (hc : OneChange z e T a b) (h0 : 0 ≤ e) (h1 : e < 2 ^ 32) (hf : ShownFirst z e c) (hl : ShownLast z e c) (fold : Bool) :
    lockOfText F (calendarAt G z clock) now (d.text ++ t.text) = .ok (.computed e) ∧
    outputLock (lockOfTime z now (.moment ⟨c, 0, none, fold⟩)) = .ok e := by
  constructor
  · have hst : z.stamp (sinceEpoch c) = e := by
      have g := hf.1.2.2
      have := hz e
      rw [← g] at this
      have hs : ClockAt z (z.stamp (sinceEpoch c)) c := ⟨hf.1.1, hf.1.2.1, this.symm⟩
      have := hf.2 _ hs
      have := hl.2 _ hs
      omega
    have := (C130_date F G z clock now hc0 hy d t hd ht).1 e
    unfold lockOfText
    rw [this.2 ⟨c, hdc, htc, hf.1.1, hst.symm⟩]
    rfl
  · cases fold
    · exact (C132_datetime hc h0 h1 now (by norm_num)).1 hf
    · exact (C132_datetime hc h0 h1 now (by norm_num)).2 hl

example : OneChange (fixedZone 3600) 1572521400 0 3600 3600 ∧ LawfulZone (fixedZone 3600) ∧ ShownFirst (fixedZone 3600) 1572521400 ⟨2019, 10, 31, 12, 30, 0⟩ ∧
    ShownLast (fixedZone 3600) 1572521400 ⟨2019, 10, 31, 12, 30, 0⟩ := by
  have hs : sinceEpoch ⟨2019, 10, 31, 12, 30, 0⟩ = 1572525000 := by decide +kernel
  have hc : ∀ e', ClockAt (fixedZone 3600) e' ⟨2019, 10, 31, 12, 30, 0⟩ → e' = 1572521400 := by
    intro e' h
    have : (1572525000 : Int) = e' + 3600 := hs ▸ h.2.2
    omega
  have h0 : ClockAt (fixedZone 3600) 1572521400 ⟨2019, 10, 31, 12, 30, 0⟩ := ⟨by decide +kernel, by decide, by rw [hs]; decide⟩
  refine ⟨⟨by decide, by decide, fun u _ => by simp [fixedZone]⟩, fun e => ?_, ⟨h0, fun e' h => (hc e' h).ge⟩, ⟨h0, fun e' h => (hc e' h).le⟩⟩
  simp [fixedZone]

/-- Finding: a microsecond before the year 10000 is rounded up to the year 10000 (the microseconds are not always dropped). -/
theorem C132_far_false : ¬ ∀ (z : Zone) (now : Int) (c : Civil) (k : Nat), RealMoment c → c.second < 60 → k < 10 ^ 6 →
    outputLock (lockOfTime z now (.moment ⟨c, k, some 0, false⟩)) = .ok (sinceEpoch c) := by
  intro h
  have h := h (fixedZone 0) 0 ⟨9999, 12, 31, 23, 59, 59⟩ 999999 (by decide +kernel) (by decide) (by decide)
  have e : sinceEpoch ⟨9999, 12, 31, 23, 59, 59⟩ = 253402300799 := by decide +kernel
  rw [e] at h
  have h2 : outputLock (lockOfTime (fixedZone 0) 0 (.moment ⟨⟨9999, 12, 31, 23, 59, 59⟩, 999999, some 0, false⟩)) = .ok 253402300800 := by decide +kernel
  rw [h2] at h
  cases h

end TF.Props
