import Verif.Time.Elapsed
import Verif.Time.Props

/-!
# Properties of elapsed periods, of concurrent swaps and of weekday names (C122, C123, C73)
-/

namespace Memar.Time

theorem toInt_sdiv_pos (a b : I64) (ha : 0 ≤ a.toInt) (hb : 0 < b.toInt) : (a.sdiv b).toInt = a.toInt / b.toInt := by
  have r := range64 a
  rw [BitVec.toInt_sdiv, Int.tdiv_eq_ediv_of_nonneg ha]
  have h1 : 0 ≤ a.toInt / b.toInt := Int.ediv_nonneg ha (by omega)
  have h2 : a.toInt / b.toInt ≤ a.toInt := Int.ediv_le_self _ ha
  exact bm64 (by omega) (by omega)

theorem toInt_sdiv_pos32 (a b : I32) (ha : 0 ≤ a.toInt) (hb : 0 < b.toInt) : (a.sdiv b).toInt = a.toInt / b.toInt := by
  have r := range32 a
  rw [BitVec.toInt_sdiv, Int.tdiv_eq_ediv_of_nonneg ha]
  have h1 : 0 ≤ a.toInt / b.toInt := Int.ediv_nonneg ha (by omega)
  have h2 : a.toInt / b.toInt ≤ a.toInt := Int.ediv_le_self _ ha
  exact bm32 (by omega) (by omega)

theorem sdiv_oneSecond (x : I64) : x.sdiv oneSecond = x := by
  have r := range64 x
  apply BitVec.toInt_inj.1
  rw [BitVec.toInt_sdiv, show oneSecond.toInt = 1 by decide, Int.tdiv_one]
  exact bm64 (by omega) (by omega)

theorem mul_oneSecond (x : I64) : x * oneSecond = x := by unfold oneSecond; rw [BitVec.mul_one]

/-- Dividing an instant by whole seconds only looks at the seconds. -/
theorem instant_div (s n k : Int) (hn : 0 ≤ n ∧ n < 1000000000) (hk : 0 < k) :
    (s * 1000000000 + n) / (k * 1000000000) = s / k := by
  rw [Int.mul_comm k, ← Int.ediv_ediv_of_nonneg (by omega)]
  congr 1
  omega

/-! ## C122 -/

/-- **C122**: for every time from the epoch on and every number of seconds, the number of periods elapsed is the instant divided by the
period, rounded down. -/
theorem C122_by_second (t : Time) (d : I64) (ht : t.Normal) (h0 : 0 ≤ t.sec.toInt) (hd : 0 < d.toInt) :
    (t.elapsedBySecond d).toInt = t.instant / (d.toInt * 1000000000) := by
  unfold Time.elapsedBySecond
  have h1 : d.slt 0#64 = false := by rw [BitVec.slt_eq_decide]; simp; omega
  have h2 : d ≠ 0#64 := by intro e; rw [e] at hd; revert hd; decide
  rw [h1, if_neg (by simp), if_neg h2, toInt_sdiv_pos _ _ h0 hd]
  unfold Time.instant
  rw [instant_div _ _ _ ht hd]

example := C122_by_second ⟨1700000000#64, 5#32⟩ 86400#64 (by simp only [Time.Normal]; decide +kernel) (by decide +kernel) (by decide)

theorem byNano_pos (t : Time) (d : I64) (hd : 0 < d.toInt) :
    t.elapsedByNano d =
      (let sec := (toSecAndNano d).1
       let nsec := (toSecAndNano d).2
       if (0#64 : I64).slt sec then t.sec.sdiv sec + (if (0#32 : I32).slt nsec then (t.nsec.sdiv nsec).signExtend 64 else 0#64)
       else t.sec.sdiv (nsec.signExtend 64) + (t.nsec.sdiv nsec).signExtend 64) := by
  unfold Time.elapsedByNano
  have h1 : d.slt 0#64 = false := by rw [BitVec.slt_eq_decide]; simp; omega
  have h2 : d ≠ 0#64 := by intro e; rw [e] at hd; revert hd; decide
  rw [h1, if_neg (by simp), if_neg h2]
  simp only [sdiv_oneSecond, mul_oneSecond]

theorem split_pos (d : I64) (hd : 0 < d.toInt) :
    (toSecAndNano d).1.toInt = d.toInt / 1000000000 ∧ (toSecAndNano d).2.toInt = d.toInt % 1000000000 := by
  obtain ⟨h1, h2⟩ := toInt_toSecAndNano d
  rw [h1, h2, Int.tdiv_eq_ediv_of_nonneg (by omega), Int.tmod_eq_emod_of_nonneg (by omega)]
  exact ⟨rfl, rfl⟩

/-- **C224** (partial: only periods of whole seconds): the number of periods of `d` nanoseconds elapsed is the instant divided by `d`,
rounded down.
Missing: other periods (refuted: `C224_by_nano_short_violated`, `C224_by_nano_mixed_violated`). -/
theorem C224_by_nano_whole_partial (t : Time) (d : I64) (ht : t.Normal) (h0 : 0 ≤ t.sec.toInt) (hd : 0 < d.toInt)
    (hw : d.toInt % 1000000000 = 0) : (t.elapsedByNano d).toInt = t.instant / d.toInt := by
  obtain ⟨e1, e2⟩ := split_pos d hd
  rw [byNano_pos t d hd]
  dsimp only
  have h1 : (0#64 : I64).slt (toSecAndNano d).1 = true := by rw [BitVec.slt_eq_decide, e1]; simp; omega
  have h2 : (0#32 : I32).slt (toSecAndNano d).2 = false := by rw [BitVec.slt_eq_decide, e2, hw]; simp
  rw [h1, if_pos rfl, h2, if_neg (by simp), BitVec.add_zero, toInt_sdiv_pos _ _ h0 (by omega), e1]
  have hk : d.toInt = d.toInt / 1000000000 * 1000000000 := by omega
  conv => rhs; rw [hk]
  unfold Time.instant
  rw [instant_div _ _ _ ht (by omega)]

example := C224_by_nano_whole_partial ⟨1700000000#64, 5#32⟩ 3000000000#64 (by simp only [Time.Normal]; decide +kernel) (by decide +kernel) (by decide) (by decide)

/-- **C224** (partial: only within the first second): for a period under a second, the number of periods is the instant divided by it.
Missing: later instants (refuted: `C224_by_nano_short_violated`). -/
theorem C224_by_nano_first_second_partial (t : Time) (d : I64) (ht : t.Normal) (h0 : t.sec = 0#64) (hd : 0 < d.toInt)
    (hs : d.toInt < 1000000000) : (t.elapsedByNano d).toInt = t.instant / d.toInt := by
  obtain ⟨e1, e2⟩ := split_pos d hd
  unfold Time.Normal at ht
  rw [byNano_pos t d hd]
  dsimp only
  have h1 : (0#64 : I64).slt (toSecAndNano d).1 = false := by rw [BitVec.slt_eq_decide, e1]; simp; omega
  rw [h1, if_neg (by simp), h0]
  have e3 : (toSecAndNano d).2.toInt = d.toInt := by rw [e2]; omega
  have h3 : ((toSecAndNano d).2.signExtend 64).toInt = d.toInt := by rw [BitVec.toInt_signExtend_of_le (by decide), e3]
  have hq : 0 ≤ t.nsec.toInt / d.toInt := Int.ediv_nonneg (by omega) (by omega)
  have hq2 : t.nsec.toInt / d.toInt ≤ t.nsec.toInt := Int.ediv_le_self _ (by omega)
  rw [BitVec.toInt_add, toInt_sdiv_pos _ _ (by decide) (by omega), h3, BitVec.toInt_signExtend_of_le (by decide),
    toInt_sdiv_pos32 _ _ (by omega) (by omega), e3]
  unfold Time.instant
  rw [h0, show (0#64 : I64).toInt = 0 by decide, Int.zero_ediv, Int.zero_add, Int.zero_mul, Int.zero_add]
  exact bm64 (by omega) (by omega)

example := C224_by_nano_first_second_partial ⟨0#64, 999#32⟩ 100#64 (by simp only [Time.Normal]; decide +kernel) rfl (by decide) (by decide)

theorem by_nano_small_lt (s n d : Int) (hs : 0 < s) (hn : 0 ≤ n) (h0 : 0 < d) (hd : d < 1000000000) :
    s / d + n / d < (s * 1000000000 + n) / d := by
  have a1 := Int.mul_ediv_add_emod s d
  have a2 := Int.mul_ediv_add_emod n d
  have b1 := Int.emod_nonneg s (show d ≠ 0 by omega)
  have b2 := Int.emod_nonneg n (show d ≠ 0 by omega)
  have q1 : 0 ≤ s / d := Int.ediv_nonneg (by omega) (by omega)
  rw [← Int.add_one_le_iff]
  apply (Int.le_ediv_iff_mul_le h0).2
  have e : (s / d + n / d + 1) * d = d * (s / d) + d * (n / d) + d := by
    rw [Int.add_mul, Int.add_mul, Int.mul_comm (s / d), Int.mul_comm (n / d)]; omega
  rw [e]
  -- d·(s/d) ≤ s and s + d ≤ s · 10⁹
  omega

/-- C224 violated: the number of periods is the instant divided by the period. Here, for every period under a second and every time a second
or more after the epoch, it is too small: the seconds are taken for nanoseconds. -/
theorem C224_by_nano_short_violated (t : Time) (d : I64) (ht : t.Normal) (h0 : 0 < t.sec.toInt) (hd : 0 < d.toInt)
    (hs : d.toInt < 1000000000) (hfit : t.sec.toInt < 4611686018427387904) :
    (t.elapsedByNano d).toInt < t.instant / d.toInt := by
  obtain ⟨e1, e2⟩ := split_pos d hd
  unfold Time.Normal at ht
  rw [byNano_pos t d hd]
  dsimp only
  have h1 : (0#64 : I64).slt (toSecAndNano d).1 = false := by rw [BitVec.slt_eq_decide, e1]; simp; omega
  rw [h1, if_neg (by simp)]
  have e3 : (toSecAndNano d).2.toInt = d.toInt := by rw [e2]; omega
  have h3 : ((toSecAndNano d).2.signExtend 64).toInt = d.toInt := by rw [BitVec.toInt_signExtend_of_le (by decide), e3]
  have hq : 0 ≤ t.nsec.toInt / d.toInt := Int.ediv_nonneg (by omega) (by omega)
  have hq2 : t.nsec.toInt / d.toInt ≤ t.nsec.toInt := Int.ediv_le_self _ (by omega)
  have hr : 0 ≤ t.sec.toInt / d.toInt := Int.ediv_nonneg (by omega) (by omega)
  have hr2 : t.sec.toInt / d.toInt ≤ t.sec.toInt := Int.ediv_le_self _ (by omega)
  rw [BitVec.toInt_add, toInt_sdiv_pos _ _ (by omega) (by omega), h3, BitVec.toInt_signExtend_of_le (by decide),
    toInt_sdiv_pos32 _ _ (by omega) (by omega), e3, bm64 (by omega) (by omega)]
  unfold Time.instant
  exact by_nano_small_lt _ _ _ h0 ht.1 hd hs

example := C224_by_nano_short_violated ⟨1700000000#64, 5#32⟩ 100#64 (by simp only [Time.Normal]; decide +kernel) (by decide +kernel) (by decide) (by decide) (by decide +kernel)

/-- C224 violated: for every period of one second or more that is not whole, the time after exactly its whole seconds lies before the end of
the first period, but one period is reported. -/
theorem C224_by_nano_mixed_violated (d : I64) (hd : 1000000000 < d.toInt) (hw : d.toInt % 1000000000 ≠ 0) :
    let t : Time := ⟨(toSecAndNano d).1, 0#32⟩
    t.instant / d.toInt = 0 ∧ (t.elapsedByNano d).toInt = 1 := by
  obtain ⟨e1, e2⟩ := split_pos d (by omega)
  dsimp only
  constructor
  · unfold Time.instant
    rw [e1, show (0#32 : I32).toInt = 0 by decide]
    exact Int.ediv_eq_zero_of_lt (by omega) (by omega)
  · rw [byNano_pos _ d (by omega)]
    dsimp only
    have h1 : (0#64 : I64).slt (toSecAndNano d).1 = true := by rw [BitVec.slt_eq_decide, e1]; simp; omega
    have h2 : (0#32 : I32).slt (toSecAndNano d).2 = true := by rw [BitVec.slt_eq_decide, e2]; simp; omega
    rw [h1, if_pos rfl, h2, if_pos rfl, BitVec.toInt_add, toInt_sdiv_pos _ _ (by omega) (by omega),
      BitVec.toInt_signExtend_of_le (by decide), toInt_sdiv_pos32 _ _ (by decide) (by omega),
      Int.ediv_self (by omega), show (0#32 : I32).toInt = 0 by decide, Int.zero_ediv]
    decide

example := C224_by_nano_mixed_violated 1500000000#64 (by decide) (by decide)

/-- C224 violated: the time from one instant to another is their difference in nanoseconds. Here that holds exactly when both lie in the
same second: whole seconds are counted as nanoseconds. -/
theorem C224_since_violated (t base : Time) (ht : t.Normal) (hb : base.Normal)
    (h1 : -4611686018427387904 < base.sec.toInt - t.sec.toInt) (h2 : base.sec.toInt - t.sec.toInt < 4611686018427387904) :
    (t.since base).toInt = (base.sec.toInt - t.sec.toInt) + (base.nsec.toInt - t.nsec.toInt) ∧
    ((t.since base).toInt = base.instant - t.instant ↔ base.sec = t.sec) := by
  unfold Time.Normal at ht hb
  have e : (t.since base).toInt = (base.sec.toInt - t.sec.toInt) + (base.nsec.toInt - t.nsec.toInt) := by
    unfold Time.since
    rw [mul_oneSecond, BitVec.toInt_add, BitVec.toInt_signExtend_of_le (by decide), BitVec.toInt_sub, BitVec.toInt_sub,
      bm64 (x := base.sec.toInt - t.sec.toInt) (by omega) (by omega), bm32 (x := base.nsec.toInt - t.nsec.toInt) (by omega) (by omega)]
    exact bm64 (by omega) (by omega)
  refine ⟨e, ?_⟩
  rw [e]
  unfold Time.instant
  constructor
  · intro h
    apply BitVec.toInt_inj.1
    omega
  · intro h
    rw [h]
    omega

example : (⟨3#64, 500000000#32⟩ : Time).elapsedBySecond 2#64 = 1#64 := by decide +kernel
example : (⟨3#64, 500000000#32⟩ : Time).elapsedByNano 2000000000#64 = 1#64 := by decide +kernel
example : (⟨3#64, 0#32⟩ : Time).elapsedByNano 1500000000#64 = 3#64 := by decide +kernel
example : (⟨5#64, 500000000#32⟩ : Time).elapsedByNano 250000000#64 = 2#64 := by decide +kernel
example : (⟨5#64, 7#32⟩ : Time).since ⟨8#64, 9#32⟩ = 5#64 := by decide +kernel

/-! ## C73: concurrent swaps and additions -/

/-- Which operations of a schedule swap the seconds. -/
def secOps : List SwapStep → List Nat
  | [] => []
  | .sec i :: r => i :: secOps r
  | .nsec _ :: r => secOps r

/-- Which operations of a schedule swap the nanoseconds. -/
def nsecOps : List SwapStep → List Nat
  | [] => []
  | .sec _ :: r => nsecOps r
  | .nsec i :: r => i :: nsecOps r

/-- **C277** (partial: word by word, not for the whole time, see `C277_mixed_swap_violated`): however swaps by any number of goroutines are
interleaved, no second and no nanosecond is lost or doubled: what was there first, followed by what was stored, is what was
returned, followed by what is there in the end, in the order of the operations.
Missing: whole times (refuted: `C277_mixed_swap_violated`). -/
theorem C277_swap_words_partial (value : Nat → Time) (start : Time) (sched : List SwapStep) :
    let w := sched.foldl (SwapWorld.step value) ⟨start, [], []⟩
    start.sec :: (secOps sched).map (fun (i : Nat) => (value i).sec) = w.gotSec.map (·.2) ++ [w.shared.sec] ∧
    start.nsec :: (nsecOps sched).map (fun (i : Nat) => (value i).nsec) = w.gotNsec.map (·.2) ++ [w.shared.nsec] ∧
    w.gotSec.map (·.1) = secOps sched ∧ w.gotNsec.map (·.1) = nsecOps sched := by
  have key : ∀ (sched : List SwapStep) (w0 : SwapWorld),
      let w := sched.foldl (SwapWorld.step value) w0
      w0.gotSec.map (·.2) ++ w0.shared.sec :: (secOps sched).map (fun (i : Nat) => (value i).sec) = w.gotSec.map (·.2) ++ [w.shared.sec] ∧
      w0.gotNsec.map (·.2) ++ w0.shared.nsec :: (nsecOps sched).map (fun (i : Nat) => (value i).nsec) =
        w.gotNsec.map (·.2) ++ [w.shared.nsec] ∧
      w.gotSec.map (·.1) = w0.gotSec.map (·.1) ++ secOps sched ∧ w.gotNsec.map (·.1) = w0.gotNsec.map (·.1) ++ nsecOps sched := by
    intro sched
    induction sched with
    | nil => intro w0; simp [secOps, nsecOps]
    | cons s r ih =>
      intro w0
      have := ih (w0.step value s)
      cases s with
      | sec i => simpa [SwapWorld.step, secOps, nsecOps] using this
      | nsec i => simpa [SwapWorld.step, secOps, nsecOps] using this
  simpa using key sched ⟨start, [], []⟩

/-- C277 violated: after concurrent swaps the clock holds one of the times stored, and one of them got back the time that was there. Here, for
all times stored by two goroutines, one schedule leaves the seconds of one with the nanoseconds of the other, and neither swap
returned the time that was there first. -/
theorem C277_mixed_swap_violated (value : Nat → Time) (start : Time) :
    (([SwapStep.sec 0, .sec 1, .nsec 1, .nsec 0].foldl (SwapWorld.step value) ⟨start, [], []⟩)) =
      ⟨⟨(value 1).sec, (value 0).nsec⟩, [(0, start.sec), (1, (value 0).sec)], [(1, start.nsec), (0, (value 1).nsec)]⟩ := by
  rfl

/-- **C73**: a swap that is not interrupted returns the time that was there and stores the new one. -/
theorem C73_swap_alone (value : Nat → Time) (start : Time) (i : Nat) :
    ([SwapStep.sec i, .nsec i].foldl (SwapWorld.step value) ⟨start, [], []⟩) = ⟨value i, [(i, start.sec)], [(i, start.nsec)]⟩ := by
  rfl

/-- **C277** (partial: only when the nanoseconds stay within the second): adding a duration, run alone, moves the instant by it.
Missing: nanoseconds that leave the second, and calls that overlap (refuted: `C277_mixed_store_violated`, `C277_torn_load_violated`). -/
theorem C277_add_partial (a : Time) (d : I64) (h1 : -9223372036854775808 ≤ a.sec.toInt + d.toInt.tdiv 1000000000)
    (h2 : a.sec.toInt + d.toInt.tdiv 1000000000 < 9223372036854775808)
    (h3 : -2147483648 ≤ a.nsec.toInt + d.toInt.tmod 1000000000) (h4 : a.nsec.toInt + d.toInt.tmod 1000000000 < 2147483648) :
    (a.atomicAdd d).instant = a.instant + d.toInt := by
  obtain ⟨e1, e2⟩ := toInt_toSecAndNano d
  have f := tdiv_facts d.toInt 1000000000 (by decide)
  unfold Time.instant Time.atomicAdd
  simp only [BitVec.toInt_add, e1, e2]
  rw [bm64 h1 h2, bm32 h3 h4]
  omega

example := C277_add_partial ⟨1700000000#64, 5#32⟩ 1500000000#64 (by decide +kernel) (by decide +kernel) (by decide +kernel) (by decide +kernel)

/-! ## C123: names of weekdays -/

/-- Specification: the English names of the days from Monday on. -/
def dayNames : List String := ["Monday", "Tuesday", "Wednesday", "Thursday", "Friday", "Saturday", "Sunday"]

/-- **C123**: in English, a set of days has a name exactly when it is a single day, and then it is the name of that day; no two sets share
a name. -/
theorem C123_english_names (w : BitVec 8) :
    (∀ d, d < 7 → w = weekdaysConst d → some (weekdaysString .english w) = dayNames[d]?) ∧
    ((∀ d, d < 7 → w ≠ weekdaysConst d) → weekdaysString .english w = "") := by
  constructor
  · intro d hd e
    subst e
    match d, hd with
    | 0, _ => rfl
    | 1, _ => rfl
    | 2, _ => rfl
    | 3, _ => rfl
    | 4, _ => rfl
    | 5, _ => rfl
    | 6, _ => rfl
  · intro h
    have h0 : w ≠ 1#8 := h 0 (by omega)
    have h1 : w ≠ 2#8 := h 1 (by omega)
    have h2 : w ≠ 4#8 := h 2 (by omega)
    have h3 : w ≠ 8#8 := h 3 (by omega)
    have h4 : w ≠ 16#8 := h 4 (by omega)
    have h5 : w ≠ 32#8 := h 5 (by omega)
    have h6 : w ≠ 64#8 := h 6 (by omega)
    unfold weekdaysString
    dsimp only
    rw [if_neg h0, if_neg h1, if_neg h2, if_neg h3, if_neg h4, if_neg h5, if_neg h6]

/-- **C123**: in either language, a name identifies its day: two single days with the same name are the same day, and no day is
without a name. -/
theorem C123_names_distinct (l : Lang) (hl : l ≠ .other) (a b : Nat) (ha : a < 7) (hb : b < 7) :
    weekdaysString l (weekdaysConst a) ≠ "" ∧
    (weekdaysString l (weekdaysConst a) = weekdaysString l (weekdaysConst b) → a = b) := by
  have key : ∀ l ∈ [Lang.english, Lang.persian], ∀ a < 7, ∀ b < 7, weekdaysString l (weekdaysConst a) ≠ "" ∧
      (weekdaysString l (weekdaysConst a) = weekdaysString l (weekdaysConst b) → a = b) := by decide +kernel
  refine key l ?_ a ha b hb
  cases l <;> simp_all

example := C123_names_distinct .persian (by decide) 2 6 (by decide) (by decide)

/-- C225 violated: a set of days is told from no day. Here every set of two or more days, the whole week among them, has the same empty
text as the empty set, and so has every day in a third language. -/
theorem C225_sets_unnamed_violated (l : Lang) (w : BitVec 8) (hw : ∀ d, d < 7 → w ≠ weekdaysConst d) (d : Nat) :
    weekdaysString l w = weekdaysString l 0#8 ∧ weekdaysString .other (weekdaysConst d) = "" := by
  refine ⟨?_, rfl⟩
  have h0 : w ≠ 1#8 := hw 0 (by omega)
  have h1 : w ≠ 2#8 := hw 1 (by omega)
  have h2 : w ≠ 4#8 := hw 2 (by omega)
  have h3 : w ≠ 8#8 := hw 3 (by omega)
  have h4 : w ≠ 16#8 := hw 4 (by omega)
  have h5 : w ≠ 32#8 := hw 5 (by omega)
  have h6 : w ≠ 64#8 := hw 6 (by omega)
  cases l
  · unfold weekdaysString; dsimp only
    rw [if_neg h0, if_neg h1, if_neg h2, if_neg h3, if_neg h4, if_neg h5, if_neg h6]; rfl
  · unfold weekdaysString; dsimp only
    rw [if_neg h0, if_neg h1, if_neg h2, if_neg h3, if_neg h4, if_neg h5, if_neg h6]; rfl
  · rfl

example : weekdaysString .english (weekdaysConst 2) = "Wednesday" := rfl
example : ∀ d, d < 7 → (0b11111111#8) ≠ weekdaysConst d := by decide

end Memar.Time
