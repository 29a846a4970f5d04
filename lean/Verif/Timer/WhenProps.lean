import Verif.Timer.When

/-!
# C20, C59: deadlines
-/

namespace Memar.Timer

/-- The largest `int64`. -/
def maxInt64 : Int := 2 ^ 63 - 1

/-- For every reading of the clock (which is not negative) and every duration the deadline is the
current time for non-positive durations and otherwise the exact sum, cut off at the largest
representable time. -/
theorem C20_when_exact (now d : U64) (hnow : 0 ≤ now.toInt) :
    (when now d).toInt = if d.toInt ≤ 0 then now.toInt else min (now.toInt + d.toInt) maxInt64 := by
  unfold when maxInt64
  have hd := BitVec.toInt_lt (x := d)
  have hn := BitVec.toInt_lt (x := now)
  have hs : d.sle 0#64 = decide (d.toInt ≤ 0) := by simp [BitVec.sle]
  have hl : (now + d).slt 0#64 = decide ((now + d).toInt < 0) := by simp [BitVec.slt]
  have hadd : (now + d).toInt = (now.toInt + d.toInt).bmod (2 ^ 64) := BitVec.toInt_add ..
  rw [hs]
  by_cases h : d.toInt ≤ 0
  · simp [h]
  · rw [if_neg h, if_neg (by simpa using h), hl, hadd]
    have hm : maxWhen.toInt = 2 ^ 63 - 1 := by decide
    by_cases h2 : now.toInt + d.toInt < 2 ^ 63
    · have e : (now.toInt + d.toInt).bmod (2 ^ 64) = now.toInt + d.toInt := by
        rw [Int.bmod_eq_of_le] <;> omega
      rw [e, if_neg (by simp; omega), hadd, e]
      omega
    · have e : (now.toInt + d.toInt).bmod (2 ^ 64) = now.toInt + d.toInt - 2 ^ 64 := by
        rw [Int.bmod_def]; omega
      rw [e, if_pos (by simp; omega), hm]
      omega

example := C20_when_exact 5#64 7#64 (by decide)

/-- A deadline is never before the current time. -/
theorem C20_never_in_the_past (now d : U64) : now.toInt ≤ (when now d).toInt := by
  by_cases hnow : 0 ≤ now.toInt
  · rw [C20_when_exact now d hnow]
    have hn := BitVec.toInt_lt (x := now)
    unfold maxInt64
    split <;> omega
  · have hl := BitVec.le_toInt now
    have hd := BitVec.toInt_lt (x := d)
    have hm : maxWhen.toInt = 2 ^ 63 - 1 := by decide
    unfold when
    split
    · exact Int.le_refl _
    · rename_i h
      have h0 : 0 < d.toInt := by
        have : ¬ d.toInt ≤ 0 := by simpa [BitVec.sle] using h
        omega
      have e : (now + d).toInt = now.toInt + d.toInt := by
        rw [BitVec.toInt_add]; exact Int.bmod_eq_of_le (by simp; omega) (by simp; omega)
      split
      · omega
      · omega

example := C20_never_in_the_past 5#64 (maxWhen - 3#64)
example := C20_never_in_the_past (-5#64) 3#64

/-- Longer durations never give earlier deadlines. -/
theorem C20_monotone (now d e : U64) (hnow : 0 ≤ now.toInt) (h : d.toInt ≤ e.toInt) :
    (when now d).toInt ≤ (when now e).toInt := by
  rw [C20_when_exact now d hnow, C20_when_exact now e hnow]
  have hn := BitVec.toInt_lt (x := now)
  unfold maxInt64
  split <;> split <;> omega

/-- Both branches of the overflow test occur. -/
example : when 5#64 7#64 = 12#64 ∧ when (maxWhen - 3#64) 4#64 = maxWhen ∧
    0 ≤ (maxWhen - 3#64 : U64).toInt := by decide

/-! ## C59: the next deadline of a periodic timer -/

/-- What a user of a periodic timer relies on: the next deadline lies strictly in the future and
a whole number of periods after the last one. -/
def GoodNext (tWhen period now next : Int) : Prop :=
  now < next ∧ ∃ k : Int, 0 < k ∧ next = tWhen + k * period

theorem toInt_nonneg_of_lt {x : U64} (h : x.toNat < 2 ^ 63) : x.toInt = x.toNat := by
  rw [BitVec.toInt_eq_toNat_cond]; omega

/-- The arithmetic of the code, over the integers, when nothing wraps. -/
theorem nextWhen_toInt (tWhen period now : U64) (hw : 0 ≤ tWhen.toInt)
    (hp : 0 < period.toInt) (hdue : tWhen.toInt ≤ now.toInt)
    (hr : tWhen.toInt + period.toInt ≤ maxInt64)
    (hlow : 0 ≤ tWhen.toInt + period.toInt * (1 - (now.toInt - tWhen.toInt) / period.toInt)) :
    (nextWhen tWhen period now).toInt =
      tWhen.toInt + period.toInt * (1 - (now.toInt - tWhen.toInt) / period.toInt) := by
  unfold maxInt64 at hr
  have hn := BitVec.toInt_lt (x := now)
  have hd : (now - tWhen).toInt = now.toInt - tWhen.toInt := by
    rw [BitVec.toInt_sub, Int.bmod_eq_of_le] <;> omega
  have hneg : (-(now - tWhen)).toInt = -(now.toInt - tWhen.toInt) := by
    rw [BitVec.toInt_neg, hd, Int.bmod_eq_of_le] <;> omega
  have hq0 : 0 ≤ (now.toInt - tWhen.toInt) / period.toInt :=
    Int.ediv_nonneg (by omega) (by omega)
  have hq1 : (now.toInt - tWhen.toInt) / period.toInt ≤ now.toInt - tWhen.toInt :=
    Int.ediv_le_self _ (by omega)
  have hdiv : ((-(now - tWhen)).sdiv period).toInt = -((now.toInt - tWhen.toInt) / period.toInt) := by
    rw [BitVec.toInt_sdiv, hneg, Int.neg_tdiv, Int.tdiv_eq_ediv_of_nonneg (by omega),
      Int.bmod_eq_of_le] <;> omega
  generalize (now.toInt - tWhen.toInt) / period.toInt = q at *
  have hone : (1#64 + (-(now - tWhen)).sdiv period).toInt = 1 - q := by
    rw [BitVec.toInt_add, hdiv, show (1#64 : U64).toInt = 1 from by decide, Int.bmod_eq_of_le] <;> omega
  have hprod : period.toInt * (1 - q) ≤ period.toInt := by
    have : period.toInt * (1 - q) = period.toInt - period.toInt * q := by
      rw [Int.mul_sub, Int.mul_one]
    have h2 : 0 ≤ period.toInt * q := Int.mul_nonneg (by omega) hq0
    omega
  have hw64 := BitVec.toInt_lt (x := tWhen)
  have hmul : (period * (1#64 + (-(now - tWhen)).sdiv period)).toInt = period.toInt * (1 - q) := by
    rw [BitVec.toInt_mul, hone, Int.bmod_eq_of_le] <;> omega
  have hsum : (tWhen + period * (1#64 + (-(now - tWhen)).sdiv period)).toInt
      = tWhen.toInt + period.toInt * (1 - q) := by
    rw [BitVec.toInt_add, hmul, Int.bmod_eq_of_le] <;> omega
  unfold nextWhen
  simp only
  have hl : (tWhen + period * (1#64 + (-(now - tWhen)).sdiv period)).slt 0#64 = false := by
    simp only [BitVec.slt, hsum]; simp; omega
  rw [hl, if_neg (by simp), hsum]

/-- A periodic timer that is run less than one period late is rescheduled correctly: the next
deadline is the next multiple, in the future.
Missing: timers that run a period late or more (refuted: `C59_late_exact_violated`,
`C59_late_timer_violated`). -/
theorem C59_next_in_future_partial (tWhen period now : U64) (hw : 0 ≤ tWhen.toInt)
    (hp : 0 < period.toInt) (hdue : tWhen.toInt ≤ now.toInt)
    (hlate : now.toInt < tWhen.toInt + period.toInt)
    (hr : tWhen.toInt + period.toInt ≤ maxInt64) :
    GoodNext tWhen.toInt period.toInt now.toInt (nextWhen tWhen period now).toInt := by
  have hq : (now.toInt - tWhen.toInt) / period.toInt = 0 :=
    Int.ediv_eq_zero_of_lt (by omega) (by omega)
  have h := nextWhen_toInt tWhen period now hw hp hdue hr (by rw [hq]; omega)
  rw [hq] at h
  refine ⟨by rw [h]; omega, 1, by omega, by rw [h]; omega⟩

example := C59_next_in_future_partial 1000#64 100#64 1050#64 (by decide) (by decide) (by decide) (by decide) (by decide)

/-- A periodic timer that is run at least one period late is not rescheduled into the future:
its next deadline is not after the missed one, so it is due again at the same `now`.  The sign
of the lateness is reversed in the code. -/
theorem C59_late_timer_violated (tWhen period now : U64) (hw : 0 ≤ tWhen.toInt)
    (hp : 0 < period.toInt)
    (hlate : tWhen.toInt + period.toInt ≤ now.toInt)
    (hlow : 0 ≤ tWhen.toInt + period.toInt * (1 - (now.toInt - tWhen.toInt) / period.toInt)) :
    (nextWhen tWhen period now).toInt ≤ tWhen.toInt ∧
    ¬ GoodNext tWhen.toInt period.toInt now.toInt (nextWhen tWhen period now).toInt := by
  have hn := BitVec.toInt_lt (x := now)
  have hq : 1 ≤ (now.toInt - tWhen.toInt) / period.toInt :=
    (Int.le_ediv_iff_mul_le hp).mpr (by omega)
  have h := nextWhen_toInt tWhen period now hw hp (by omega) (by unfold maxInt64; omega) hlow
  have hle : (nextWhen tWhen period now).toInt ≤ tWhen.toInt := by
    rw [h]
    have : period.toInt * (1 - (now.toInt - tWhen.toInt) / period.toInt) ≤ 0 :=
      Int.mul_nonpos_of_nonneg_of_nonpos (by omega) (by omega)
    omega
  exact ⟨hle, fun g => by have := g.1; omega⟩

/-- On time by half a period: the next deadline is right.  Three and a half periods late: the
next deadline is two periods *before* the missed one. -/
example : nextWhen 1000#64 100#64 1050#64 = 1100#64 ∧
    nextWhen 1000#64 100#64 1350#64 = 800#64 ∧
    0 ≤ (1000#64 : U64).toInt + (100#64 : U64).toInt *
      (1 - ((1350#64 : U64).toInt - (1000#64 : U64).toInt) / (100#64 : U64).toInt) := by
  decide

/-! ## C60: the wake-up time -/

/-- Both wake-up computations return the earlier of the two stored times, where zero means
"none"; they differ only when there is neither (the largest time, and zero). -/
theorem C60_sleepUntil_exact (a b : U64) (ha : 0 ≤ a.toInt) (hb : 0 ≤ b.toInt) :
    (sleepUntil a b).toInt =
      if a = 0#64 then (if b = 0#64 then maxInt64 else b.toInt)
      else if b = 0#64 then a.toInt else min a.toInt b.toInt := by
  have ha' := BitVec.toInt_lt (x := a)
  have hb' := BitVec.toInt_lt (x := b)
  have hm : maxWhen.toInt = maxInt64 := by decide
  unfold sleepUntil
  simp only [BitVec.slt, decide_eq_true_eq]
  unfold maxInt64 at *
  by_cases a0 : a = 0#64 <;> by_cases b0 : b = 0#64 <;>
    simp only [a0, b0, ne_eq, not_true_eq_false, not_false_eq_true, false_and, true_and, if_true,
      if_false, hm]
  all_goals repeat' split
  all_goals omega

example := C60_sleepUntil_exact 9#64 4#64 (by decide) (by decide)

/-- **C60**: the wake time is exactly the earlier of the two recorded times, zero meaning that there is none. -/
theorem C60_wakeTime_exact (a b : U64) :
    (noBarrierWakeTime a b).toInt =
      if a = 0#64 then b.toInt
      else if b = 0#64 then a.toInt else min a.toInt b.toInt := by
  unfold noBarrierWakeTime
  simp only [BitVec.slt, decide_eq_true_eq]
  by_cases a0 : a = 0#64 <;> by_cases b0 : b = 0#64 <;>
    simp only [a0, b0, ne_eq, not_true_eq_false, not_false_eq_true, false_and, true_and, if_true,
      if_false, true_or, false_or, or_false]
  split <;> omega

/-- Recording a modified deadline keeps the earliest of all recorded ones. -/
theorem C60_modifiedEarliest_exact (ds : List U64) (hds : ∀ d ∈ ds, 0 < d.toInt) :
    (ds = [] → ds.foldl updateModifiedEarliest 0#64 = 0#64) ∧
    (ds ≠ [] → ds.foldl updateModifiedEarliest 0#64 ∈ ds ∧
      ∀ d ∈ ds, (ds.foldl updateModifiedEarliest 0#64).toInt ≤ d.toInt) := by
  refine ⟨fun h => by subst h; rfl, fun hne => ?_⟩
  have gen : ∀ (ds : List U64) (x : U64), 0 < x.toInt → (∀ d ∈ ds, 0 < d.toInt) →
      ds.foldl updateModifiedEarliest x ∈ x :: ds ∧
      (ds.foldl updateModifiedEarliest x).toInt ≤ x.toInt ∧
      ∀ d ∈ ds, (ds.foldl updateModifiedEarliest x).toInt ≤ d.toInt := by
    intro ds
    induction ds with
    | nil => intro x hx _; simp
    | cons d ds ih =>
      intro x hx hds
      have hx0 : x ≠ 0#64 := by intro e; subst e; simp at hx
      have hd : 0 < d.toInt := hds d (by simp)
      rw [List.foldl_cons]
      by_cases hlt : x.slt d
      · have e : updateModifiedEarliest x d = x := by
          unfold updateModifiedEarliest; rw [if_pos ⟨hx0, hlt⟩]
        rw [e]
        obtain ⟨h1, h2, h3⟩ := ih x hx (fun c hc => hds c (by simp [hc]))
        simp only [BitVec.slt, decide_eq_true_eq] at hlt
        refine ⟨?_, h2, fun c hc => ?_⟩
        · rcases List.mem_cons.mp h1 with h | h
          · rw [h]; simp
          · simp [h]
        · rcases List.mem_cons.mp hc with h | h
          · subst h; omega
          · exact h3 c h
      · have e : updateModifiedEarliest x d = d := by
          unfold updateModifiedEarliest; rw [if_neg (fun h => hlt h.2)]
        rw [e]
        obtain ⟨h1, h2, h3⟩ := ih d hd (fun c hc => hds c (by simp [hc]))
        simp only [BitVec.slt, decide_eq_true_eq] at hlt
        refine ⟨?_, by omega, fun c hc => ?_⟩
        · exact List.mem_cons_of_mem _ h1
        · rcases List.mem_cons.mp hc with h | h
          · subst h; exact h2
          · exact h3 c h
  cases ds with
  | nil => exact absurd rfl hne
  | cons d ds =>
    have e : updateModifiedEarliest 0#64 d = d := by
      unfold updateModifiedEarliest; rw [if_neg (fun h => h.1 rfl)]
    rw [List.foldl_cons, e]
    obtain ⟨h1, h2, h3⟩ := gen ds d (hds d (by simp)) (fun c hc => hds c (by simp [hc]))
    refine ⟨h1, fun c hc => ?_⟩
    rcases List.mem_cons.mp hc with h | h
    · subst h; exact h2
    · exact h3 c h

example : [9#64, 4#64, 7#64].foldl updateModifiedEarliest 0#64 = 4#64 := by decide

end Memar.Timer
