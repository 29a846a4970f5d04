import Verif.Timer.WheelProps

/-!
# The drift of ticking timers on the wheel, for every wheel and period (C68)
-/

namespace Memar.Timer.Wheel

theorem tick_single (per : Nat → Int) (w : Wheel) (t k : Nat) (hi : w.interval > 0)
    (hp : per t = k * w.interval) (hk : k ≥ 1) (hslot : w.wheel[w.pos]? = some [t])
    (hend : w.pos + 1 < w.wheel.length) :
    tick per w = put { w with pos := w.pos + 1, wheel := w.wheel.set w.pos [], fired := w.fired ++ [t] }
      ((k : Int) + (w.pos + 1)) t := by
  have hpos : per t > 0 := by rw [hp]; exact Int.mul_pos (by omega) hi
  have hinc : incrementTickPosition w = { w with pos := w.pos + 1 } := by
    unfold incrementTickPosition; rw [if_neg (by omega)]
  unfold tick
  rw [hslot]
  simp only [hinc, runSlot]
  unfold checkAndAddAgain addedPosition
  rw [if_pos hpos]
  simp only
  rw [if_neg (by omega), hp, Int.mul_tdiv_cancel _ (by omega)]
  simp only [Int.natCast_add, Int.cast_ofNat_Int]
  split <;> simp_all

/-- **C68** violated for ticking timers of every period: on every wheel, the tick that runs a timer whose period is
`k` intervals puts it `k` slots after the position the wheel has *already moved on to*, so that the next `k` ticks
skip it and it runs again on the tick number `k + 1`: a period of `k + 1` intervals instead of `k`. -/
theorem C68_every_period_drifts_violated (per : Nat → Int) (w : Wheel) (t k : Nat) (hi : w.interval > 0)
    (hp : per t = k * w.interval) (hk : k ≥ 1) (hslot : w.wheel[w.pos]? = some [t])
    (honly : ∀ i, cnt w t i = if i = w.pos then 1 else 0) (hfit : w.pos + 1 + k < w.wheel.length) :
    ∃ w1, tick per w = some w1 ∧ w1.fired = w.fired ++ [t] ∧
      (∀ j w2, j ≤ k → ticks per j w1 = some w2 → w2.fired.count t = w1.fired.count t) ∧
      (∀ w2 w3, ticks per k w1 = some w2 → tick per w2 = some w3 →
        w3.fired.count t = w1.fired.count t + 1) := by
  have hlen : w.pos < w.wheel.length := by omega
  obtain ⟨w1, hw1⟩ : ∃ w1, put { w with pos := w.pos + 1, wheel := w.wheel.set w.pos [], fired := w.fired ++ [t] }
      ((k : Int) + (w.pos + 1)) t = some w1 := by
    unfold put
    have hl : w.pos + 1 + k < (w.wheel.set w.pos []).length := by simpa using hfit
    rw [if_neg (by omega), show ((k : Int) + (w.pos + 1)).toNat = w.pos + 1 + k by omega,
      List.getElem?_eq_getElem hl]
    exact ⟨_, rfl⟩
  obtain ⟨a1, a2, a3, a4, a5, a6⟩ := put_spec hw1
  simp only [List.length_set] at a2 a3 a4
  have hone : ∀ i, cnt w1 t i = if i = w.pos + 1 + k then 1 else 0 := by
    intro i
    rw [a1, show ((k : Int) + (w.pos + 1)).toNat = w.pos + 1 + k by omega]
    have h0 : cnt { w with pos := w.pos + 1, wheel := w.wheel.set w.pos [], fired := w.fired ++ [t] } t i = 0 := by
      have := honly i
      unfold cnt at this ⊢
      simp only [List.getD_eq_getElem?_getD, List.getElem?_set] at this ⊢
      by_cases e : w.pos = i
      · rw [if_pos e, if_pos (by omega)]; rfl
      · rw [if_neg e]; rw [if_neg (fun c => e c.symm)] at this; exact this
    rw [h0]; simp
  refine ⟨w1, by rw [tick_single per w t k hi hp hk hslot (by omega), hw1], a4, fun j w2 hj h2 => ?_,
    fun w2 w3 h2 h3 => ?_⟩
  · exact (wait_in_slot j t (w.pos + 1 + k) (by omega) (by omega) hone h2).1
  · obtain ⟨r1, r2, r3, r4⟩ := wait_in_slot k t (w.pos + 1 + k) (by omega) (by omega) hone h2
    obtain ⟨ts, e1, e2, _⟩ := tick_spec h3
    have hc : ts.count t = 1 := by
      have := r4 w2.pos
      rw [if_pos (by omega), cnt, List.getD_eq_getElem?_getD, e1] at this
      exact this
    rw [e2, List.count_append, hc, r1]

/-- **C68** violated for ticking timers near the end of the wheel: on every wheel, the tick that runs such a timer panics
as soon as its next slot lies past the last one, however short the period is. -/
theorem C68_tick_panics_violated (per : Nat → Int) (w : Wheel) (t k : Nat) (hi : w.interval > 0)
    (hp : per t = k * w.interval) (hk : k ≥ 1) (hslot : w.wheel[w.pos]? = some [t])
    (hend : w.pos + 1 < w.wheel.length) (hover : w.wheel.length ≤ w.pos + 1 + k) : tick per w = none := by
  rw [tick_single per w t k hi hp hk hslot hend]
  unfold put
  rw [if_neg (by omega), show ((k : Int) + (w.pos + 1)).toNat = w.pos + 1 + k by omega,
    List.getElem?_eq_none (by simpa using hover)]

/-- Such wheels are reached: eight slots, a period of three intervals, before the tick that runs it for the first time
(at position 3; it fits) and, with a period of two intervals, at positions 2 (fits) and 5 (does not). -/
example : ∃ w w1 w2, init 10 8 = some w ∧ addTimer (fun _ => 30) w 7 = some w1 ∧
    ticks (fun _ => 30) 3 w1 = some w2 ∧ w2.wheel[w2.pos]? = some [7] ∧ w2.pos = 3 ∧
    w2.wheel.map (List.count 7) = [0, 0, 0, 1, 0, 0, 0, 0] ∧ (30 : Int) = (3 : Nat) * w2.interval :=
  ⟨_, _, _, rfl, rfl, rfl, rfl, rfl, rfl, rfl⟩

example : ∃ w w1 w2, init 10 8 = some w ∧ addTimer (fun _ => 20) w 7 = some w1 ∧
    ticks (fun _ => 20) 5 w1 = some w2 ∧ w2.wheel[w2.pos]? = some [7] ∧ w2.pos = 5 ∧
    tick (fun _ => 20) w2 = none := ⟨_, _, _, rfl, rfl, rfl, rfl, rfl, rfl⟩

example := C68_every_period_drifts_violated (fun _ => 20) ⟨8, [[], [7], [], [], [], [], [], []], 10, 1, []⟩ 7 2 (by decide) rfl (by decide) rfl
  (fun i => match i with
    | 0 | 1 | 2 | 3 | 4 | 5 | 6 | 7 => rfl
    | n + 8 => by simp [cnt]) (by decide)

end Memar.Timer.Wheel
