import Verif.Time.Whole

/-!
# C155: whole minutes, hours, days and weeks
-/

namespace Memar.Time.Earth
open Memar Memar.Time

namespace WSpec

/-- `n` is the number of whole units of length `unit` that are over in `d`: a duration below zero counts like its opposite. -/
def Whole (d unit n : Int) : Prop :=
  (0 ≤ d → n * unit ≤ d ∧ d < (n + 1) * unit) ∧ (d ≤ 0 → d ≤ n * unit ∧ (n - 1) * unit < d)

/-- The seconds in each unit. -/
def minute : Int := 60
def hour : Int := 3600
def day : Int := 86400
def week : Int := 604800
/-- The nanoseconds in a second. -/
def second : Int := 1000000000

end WSpec
open WSpec

theorem whole_tdiv (d k : Int) (hk : 0 < k) : Whole d k (d.tdiv k) := by
  refine ⟨fun h => ?_, fun h => ?_⟩
  · rw [Int.tdiv_eq_ediv_of_nonneg h]
    have h1 := Int.ediv_mul_le d (b := k) (by omega)
    have h2 := Int.lt_ediv_add_one_mul_self d hk
    exact ⟨h1, h2⟩
  · have e : d.tdiv k = -((-d) / k) := by
      rw [← Int.tdiv_eq_ediv_of_nonneg (a := -d) (by omega), Int.neg_tdiv, Int.neg_neg]
    have h1 := Int.ediv_mul_le (-d) (b := k) (by omega)
    have h2 := Int.lt_ediv_add_one_mul_self (-d) hk
    rw [e]
    refine ⟨?_, ?_⟩
    · rw [Int.neg_mul]; omega
    · rw [show -(-d / k) - 1 = -(-d / k + 1) by omega, Int.neg_mul]; omega

theorem sdiv_whole (d b : I64) (k : Int) (hb : b.toInt = k) (hk : 1 < k) : Whole d.toInt k (d.sdiv b).toInt := by
  have hne : b ≠ -1#64 := by
    intro e; rw [e] at hb; have : (-1#64 : I64).toInt = -1 := by decide
    omega
  rw [BitVec.toInt_sdiv_of_ne_or_ne _ _ (Or.inr hne), hb]
  exact whole_tdiv _ _ (by omega)

theorem whole_unique (d k n m : Int) (hk : 0 < k) (h : Whole d k n) (h' : Whole d k m) : n = m := by
  rcases Int.le_total 0 d with h0 | h0
  · obtain ⟨a, b⟩ := h.1 h0
    obtain ⟨a', b'⟩ := h'.1 h0
    have c1 : n < m + 1 := Int.lt_of_mul_lt_mul_right (by omega) (by omega : 0 ≤ k)
    have c2 : m < n + 1 := Int.lt_of_mul_lt_mul_right (by omega) (by omega : 0 ≤ k)
    omega
  · obtain ⟨a, b⟩ := h.2 h0
    obtain ⟨a', b'⟩ := h'.2 h0
    have c1 : n - 1 < m := Int.lt_of_mul_lt_mul_right (by omega) (by omega : 0 ≤ k)
    have c2 : m - 1 < n := Int.lt_of_mul_lt_mul_right (by omega) (by omega : 0 ≤ k)
    omega

/-- **C155**: every duration in seconds, also one below zero, is turned into the number of whole
minutes, hours, days and weeks in it. -/
theorem C155_seconds (d : I64) :
    Whole d.toInt minute (minuteFromSecond d).toInt ∧ Whole d.toInt hour (hourFromSecond d).toInt ∧
      Whole d.toInt day (dayFromSecond d).toInt ∧ Whole d.toInt week (weekFromSecond d).toInt :=
  ⟨sdiv_whole _ _ _ (by decide) (by decide), sdiv_whole _ _ _ (by decide) (by decide), sdiv_whole _ _ _ (by decide) (by decide),
    sdiv_whole _ _ _ (by decide) (by decide)⟩

/-- **C155**: the whole minutes of a duration give its whole hours, these its whole days, and
these its whole weeks. -/
theorem C155_units (d : I64) :
    (hourFromSecond d).toInt = (minuteFromSecond d).toInt.tdiv 60 ∧ (dayFromSecond d).toInt = (hourFromSecond d).toInt.tdiv 24 ∧
      (weekFromSecond d).toInt = (dayFromSecond d).toInt.tdiv 7 := by
  have e : ∀ b : I64, ∀ k : Int, b.toInt = k → 1 < k → (d.sdiv b).toInt = d.toInt.tdiv k := by
    intro b k hb hk
    have hne : b ≠ -1#64 := by
      intro e; rw [e] at hb; have : (-1#64 : I64).toInt = -1 := by decide
      omega
    rw [BitVec.toInt_sdiv_of_ne_or_ne _ _ (Or.inr hne), hb]
  unfold hourFromSecond minuteFromSecond dayFromSecond weekFromSecond
  rw [e secondInHour 3600 (by decide) (by decide), e secondInMinute 60 (by decide) (by decide),
    e secondInDay 86400 (by decide) (by decide), e secondInWeek 604800 (by decide) (by decide)]
  have p : ∀ x k : Int, 0 ≤ x → x.tdiv k = x / k := fun x k h => Int.tdiv_eq_ediv_of_nonneg h
  have q : ∀ x k : Int, x ≤ 0 → x.tdiv k = -(-x / k) := by
    intro x k h
    rw [← Int.tdiv_eq_ediv_of_nonneg (a := -x) (by omega), Int.neg_tdiv, Int.neg_neg]
  rcases Int.le_total 0 d.toInt with h | h
  · simp only [p _ _ h]
    rw [p _ _ (by omega), p _ _ (by omega), p _ _ (by omega)]
    omega
  · simp only [q _ _ h]
    rw [q _ _ (by omega), q _ _ (by omega), q _ _ (by omega)]
    omega

/-- **C155**: the constants agree: so many minutes, hours and days there are in the longer units. -/
theorem C155_constants :
    minuteInHour.toInt * minute = hour ∧ minuteInDay.toInt * minute = day ∧ minuteInWeek.toInt * minute = week ∧
      hourInDay.toInt * hour = day ∧ hourInWeek.toInt * hour = week ∧ dayInWeek.toInt * day = week := by decide

/-- **C239** violated for durations in nanoseconds: every duration in nanoseconds is counted as if it were in seconds. -/
theorem C239_nano_violated (d : I64) :
    Whole d.toInt minute (minuteFromNano d).toInt ∧ Whole d.toInt hour (hourFromNano d).toInt ∧
      Whole d.toInt day (dayFromNano d).toInt ∧ Whole d.toInt week (weekFromNano d).toInt :=
  C155_seconds d

/-- **C239** violated for every duration of a minute or more: the answer is wrong. -/
theorem C239_nano_wrong_violated (d : I64) (h : minute ≤ d.toInt) :
    ¬ Whole d.toInt (minute * second) (minuteFromNano d).toInt := by
  intro hw
  obtain ⟨a, b⟩ := (C239_nano_violated d).1.1 (by unfold minute at h; omega)
  obtain ⟨a', b'⟩ := hw.1 (by unfold minute at h; omega)
  unfold minute second at *
  generalize (minuteFromNano d).toInt = n at *
  generalize d.toInt = x at *
  omega

example : (dayFromSecond 172799#64).toInt = 1 ∧ (dayFromSecond (-172799#64)).toInt = -1 := by decide
example : minute ≤ (90000000000#64 : I64).toInt ∧ (minuteFromNano 90000000000#64).toInt = 1500000000 := by decide

end Memar.Time.Earth
