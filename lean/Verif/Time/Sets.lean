import Verif.Time.Model

/-!
# Sets of weekdays, hours and half hours

`Weekdays`, `utc.DayHours` and `earth.DayHours` are sets: their comments say that named values
may be joined with `|`, and `Check` asks whether a value is in such a set.
-/

namespace Memar.Time.Sets

open Memar.Time

/-! ## Model -/

/-- time/earth/dayhour.go:10-59: the constant of the half hour `k` after midnight, `DayHours_0`
for zero, `DayHours_0_Half` for one, `DayHours_1` for two, and so on up to `DayHours_23_Half` for
47; `iota` is one on the line of `DayHours_0`. -/
def halfHourConst (k : Nat) : BitVec 64 := 1#64 <<< (k + 1)

/-- time/earth/dayhour.go:63 -/
def halfHourCheck (dh hour : BitVec 64) : Bool := hour &&& dh != 0#64

/-- time/earth/dayhour.go:59 -/
def halfHoursAll : BitVec 64 := ~~~(0#64)

/-- time/utc/dayhour.go:35 -/
def dayHoursAll : BitVec 32 := 0b11111111111111111111111111111111#32

/-- time/utc/weekday.go:23 -/
def weekdaysAll : BitVec 8 := 0b11111111#8

/-! ## Specification -/

/-- The Go expression `a | b | … | 0`. -/
def joined {w : Nat} : List (BitVec w) → BitVec w
  | [] => 0#w
  | x :: l => x ||| joined l

/-! ## Lemmas -/

theorem joined_bit {w : Nat} (s : Nat) (l : List Nat) (i : Nat) (hi : i + s < w) :
    (joined (l.map fun k => 1#w <<< (k + s))).getLsbD (i + s) = true ↔ i ∈ l := by
  induction l with
  | nil => simp [joined]
  | cons k l ih =>
      have h : (1#w <<< (k + s)).getLsbD (i + s) = true ↔ i = k := by
        simp [BitVec.getLsbD_shiftLeft, BitVec.getLsbD_one]
        omega
      simp only [List.map_cons, joined, BitVec.getLsbD_or, Bool.or_eq_true, h, ih, List.mem_cons]

theorem joined_low {w : Nat} (s : Nat) (l : List Nat) (i : Nat) (hi : i < s) :
    (joined (l.map fun k => 1#w <<< (k + s))).getLsbD i = false := by
  induction l with
  | nil => simp [joined]
  | cons k l ih =>
      have h : (1#w <<< (k + s)).getLsbD i = false := by
        simp [BitVec.getLsbD_shiftLeft]
        omega
      simp only [List.map_cons, joined, BitVec.getLsbD_or, h, ih, Bool.or_self]

theorem and_joined {w : Nat} (s : Nat) (a b : List Nat) (ha : ∀ k ∈ a, k + s < w) :
    ((joined (b.map fun k => 1#w <<< (k + s)) &&& joined (a.map fun k => 1#w <<< (k + s))) != 0#w)
      = true ↔ ∃ k ∈ a, k ∈ b := by
  rw [bne_iff_ne, ne_eq]
  constructor
  · intro h
    refine Classical.byContradiction fun hno => h ?_
    refine BitVec.eq_of_getLsbD_eq fun i hi => ?_
    rw [BitVec.getLsbD_and, BitVec.getLsbD_zero]
    rcases Nat.lt_or_ge i s with hs | hs
    · rw [joined_low s b i hs, Bool.false_and]
    · obtain ⟨j, rfl⟩ : ∃ j, i = j + s := ⟨i - s, by omega⟩
      cases hb : (joined (b.map fun k => 1#w <<< (k + s))).getLsbD (j + s) with
      | false => rfl
      | true =>
          cases hc : (joined (a.map fun k => 1#w <<< (k + s))).getLsbD (j + s) with
          | false => rfl
          | true =>
              exact absurd ⟨j, (joined_bit s a j hi).1 hc, (joined_bit s b j hi).1 hb⟩ hno
  · rintro ⟨k, hk, hk'⟩ h
    have h1 := (joined_bit s a k (ha k hk)).2 hk
    have h2 := (joined_bit s b k (ha k hk)).2 hk'
    have := congrArg (fun v => v.getLsbD (k + s)) h
    simp only [BitVec.getLsbD_and, BitVec.getLsbD_zero, h1, h2, Bool.and_self] at this
    exact absurd this (by decide)

/-! ## C304 -/

/-- **C304**, days of the week: whatever days are joined to a set and whatever days are joined to
a question, `Check` says yes exactly when some day is in both. -/
theorem C304_weekdays (days asked : List Nat) (h : ∀ d ∈ days, d < 7) :
    weekdaysCheck (joined (days.map weekdaysConst)) (joined (asked.map weekdaysConst)) = true ↔
      ∃ d ∈ days, d ∈ asked := by
  have e : weekdaysConst = fun k => 1#8 <<< (k + 0) := rfl
  rw [e]
  exact and_joined 0 days asked fun k hk => by have := h k hk; omega

example := C304_weekdays [0, 5] [5, 6] (by decide)

/-- **C304**, hours of the day (`utc`): the same of the 24 named hours. -/
theorem C304_hours (hours asked : List Nat) (h : ∀ k ∈ hours, k < 24) :
    dayHoursCheck (joined (hours.map dayHoursConst)) (joined (asked.map dayHoursConst)) = true ↔
      ∃ k ∈ hours, k ∈ asked :=
  and_joined 1 hours asked fun k hk => by have := h k hk; omega

example := C304_hours [8, 9, 23] [23, 0] (by decide)

/-- **C304**, half hours of the day (`earth`): the same of the 48 named half hours. -/
theorem C304_half_hours (halves asked : List Nat) (h : ∀ k ∈ halves, k < 48) :
    halfHourCheck (joined (halves.map halfHourConst)) (joined (asked.map halfHourConst)) = true ↔
      ∃ k ∈ halves, k ∈ asked :=
  and_joined 1 halves asked fun k hk => by have := h k hk; omega

example := C304_half_hours [16, 17, 47] [47] (by decide)

/-- **C304**: the value named `All` holds everything that is asked about, save the empty set, and
the value named `None` (zero) holds nothing, for all three kinds of sets.
Missing: that joining every named value gives `All` (refuted: `C304_all_equal_violated`). -/
theorem C304_all_none_partial :
    (∀ d, weekdaysCheck weekdaysAll d = true ↔ d ≠ 0#8) ∧
    (∀ d, dayHoursCheck dayHoursAll d = true ↔ d ≠ 0#32) ∧
    (∀ d, halfHourCheck halfHoursAll d = true ↔ d ≠ 0#64) ∧
    (∀ d, weekdaysCheck 0#8 d = false) ∧ (∀ d, dayHoursCheck 0#32 d = false) ∧
    (∀ d, halfHourCheck 0#64 d = false) := by
  have e1 : weekdaysAll = BitVec.allOnes 8 := by decide +kernel
  have e2 : dayHoursAll = BitVec.allOnes 32 := by decide +kernel
  have e3 : halfHoursAll = BitVec.allOnes 64 := by decide +kernel
  have a : ∀ w (d : BitVec w), ((d &&& BitVec.allOnes w) != 0#w) = true ↔ d ≠ 0#w := by
    intro w d; rw [BitVec.and_allOnes, bne_iff_ne]
  rw [e1, e2, e3]
  exact ⟨a 8, a 32, a 64, fun d => by simp [weekdaysCheck], fun d => by simp [dayHoursCheck],
    fun d => by simp [halfHourCheck]⟩

/-- **C304** is violated for `All`: a set that holds every named value is never equal to the value
named `All`, whichever way it was joined, because `All` has bits that name nothing. -/
theorem C304_all_equal_violated (days hours halves : List Nat) (hd : ∀ d ∈ days, d < 7)
    (hh : ∀ k ∈ hours, k < 24) (hf : ∀ k ∈ halves, k < 48) :
    joined (days.map weekdaysConst) ≠ weekdaysAll ∧
    joined (hours.map dayHoursConst) ≠ dayHoursAll ∧
    joined (halves.map halfHourConst) ≠ halfHoursAll := by
  refine ⟨fun e => ?_, fun e => ?_, fun e => ?_⟩
  · have e' : weekdaysConst = fun k => 1#8 <<< (k + 0) := rfl
    rw [e'] at e
    have := (joined_bit (w := 8) 0 days 7 (by decide)).1 (by rw [e]; decide +kernel)
    exact absurd (hd 7 this) (by decide)
  · have := (joined_low (w := 32) 1 hours 0 (by decide))
    rw [show (hours.map fun k => 1#32 <<< (k + 1)) = hours.map dayHoursConst from rfl, e] at this
    exact absurd this (by decide +kernel)
  · have := (joined_low (w := 64) 1 halves 0 (by decide))
    rw [show (halves.map fun k => 1#64 <<< (k + 1)) = halves.map halfHourConst from rfl, e] at this
    exact absurd this (by decide +kernel)

example := C304_all_equal_violated [0, 1, 2, 3, 4, 5, 6] (List.range 24) (List.range 48)
  (by decide) (by simp) (by simp)

end Memar.Time.Sets
