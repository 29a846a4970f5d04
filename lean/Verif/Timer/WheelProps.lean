import Verif.Timer.Wheel

/-!
# Properties of the timing wheel (C68)
-/

namespace Memar.Timer.Wheel

/-- How often the timer is in slot `j`. -/
def cnt (w : Wheel) (t j : Nat) : Nat := (w.wheel.getD j []).count t

theorem put_spec {w w' : Wheel} {p : Int} {u : Nat} (h : put w p u = some w') :
    (∀ t j, cnt w' t j = cnt w t j + if u = t ∧ j = p.toNat then 1 else 0) ∧
    w'.wheel.length = w.wheel.length ∧ w'.pos = w.pos ∧ w'.fired = w.fired ∧
    w'.interval = w.interval ∧ w'.wheelSize = w.wheelSize := by
  unfold put at h
  split at h
  · cases h
  · split at h
    · cases h
    · rename_i l hl
      cases h
      obtain ⟨hlt, hle⟩ := List.getElem?_eq_some_iff.mp hl
      refine ⟨fun t j => ?_, by simp, rfl, rfl, rfl, rfl⟩
      unfold cnt
      simp only [List.getD_eq_getElem?_getD, List.getElem?_set]
      by_cases e : p.toNat = j
      · subst e
        rw [if_pos rfl, if_pos hlt, hl]
        simp only [Option.getD_some, List.count_append, and_true]
        by_cases e2 : u = t
        · subst e2; simp
        · simp [e2]
      · rw [if_neg e]
        have : ¬ (u = t ∧ j = p.toNat) := fun c => e c.2.symm
        rw [if_neg this]; rfl

theorem again_spec {per : Nat → Int} {w w' : Wheel} {u : Nat} (h : checkAndAddAgain per w u = some w') :
    (∀ t j, t ≠ u → cnt w' t j = cnt w t j) ∧
    w'.wheel.length = w.wheel.length ∧ w'.pos = w.pos ∧ w'.fired = w.fired ∧
    w'.interval = w.interval ∧ w'.wheelSize = w.wheelSize := by
  unfold checkAndAddAgain at h
  split at h
  · split at h
    · cases h
    · obtain ⟨h1, h2⟩ := put_spec h
      refine ⟨fun t j ht => ?_, h2⟩
      rw [h1, if_neg (fun c => ht c.1.symm)]; rfl
  · cases h; exact ⟨fun _ _ _ => rfl, rfl, rfl, rfl, rfl, rfl⟩

theorem runSlot_spec {per : Nat → Int} (ts : List Nat) {w w' : Wheel}
    (h : runSlot per ts w = some w') :
    (∀ t j, t ∉ ts → cnt w' t j = cnt w t j) ∧
    w'.wheel.length = w.wheel.length ∧ w'.pos = w.pos ∧ w'.fired = w.fired ++ ts ∧
    w'.interval = w.interval ∧ w'.wheelSize = w.wheelSize := by
  induction ts generalizing w with
  | nil => cases h; exact ⟨fun _ _ _ => rfl, rfl, rfl, by simp, rfl, rfl⟩
  | cons u us ih =>
    rw [runSlot] at h
    split at h
    · cases h
    · rename_i w1 h1
      obtain ⟨a1, a2, a3, a4, a5, a6⟩ := again_spec h1
      obtain ⟨b1, b2, b3, b4, b5, b6⟩ := ih h
      refine ⟨fun t j ht => ?_, b2.trans a2, b3.trans a3, ?_, b5.trans a5, b6.trans a6⟩
      · rw [List.mem_cons, not_or] at ht
        rw [b1 t j ht.2, a1 t j ht.1]; rfl
      · rw [b4, a4, List.append_assoc]; rfl

/-- A tick runs the timers of the current slot, in order, and nothing else. -/
theorem tick_spec {per : Nat → Int} {w w' : Wheel} (h : tick per w = some w') :
    ∃ ts, w.wheel[w.pos]? = some ts ∧ w'.fired = w.fired ++ ts ∧
      w'.pos = (if w.wheel.length = w.pos + 1 then 0 else w.pos + 1) ∧
      w'.wheel.length = w.wheel.length ∧ w'.interval = w.interval ∧ w'.wheelSize = w.wheelSize ∧
      (∀ t j, t ∉ ts → cnt w' t j = cnt w t j) := by
  unfold tick at h
  split at h
  · cases h
  · rename_i ts hts
    obtain ⟨hlt, hle⟩ := List.getElem?_eq_some_iff.mp hts
    obtain ⟨b1, b2, b3, b4, b5, b6⟩ := runSlot_spec ts h
    have hi : (incrementTickPosition w).fired = w.fired ∧ (incrementTickPosition w).interval = w.interval ∧
        (incrementTickPosition w).wheelSize = w.wheelSize ∧
        (incrementTickPosition w).pos = (if w.wheel.length = w.pos + 1 then 0 else w.pos + 1) := by
      unfold incrementTickPosition
      by_cases e : w.wheel.length = w.pos + 1
      · rw [if_pos (by omega), if_pos e]; exact ⟨rfl, rfl, rfl, rfl⟩
      · rw [if_neg (by omega), if_neg e]; exact ⟨rfl, rfl, rfl, rfl⟩
    refine ⟨ts, hts, by rw [b4, hi.1], by rw [b3, hi.2.2.2], by rw [b2]; simp, by rw [b5, hi.2.1],
      by rw [b6, hi.2.2.1], fun t j ht => ?_⟩
    rw [b1 t j ht]
    unfold cnt
    simp only [List.getD_eq_getElem?_getD, List.getElem?_set]
    by_cases e : w.pos = j
    · subst e
      rw [if_pos rfl, if_pos hlt, hts]
      simp only [Option.getD_some, List.count_nil]
      exact (List.count_eq_zero.mpr ht).symm
    · rw [if_neg e]

theorem wait_in_slot {per : Nat → Int} (j : Nat) {w w' : Wheel} (t s : Nat)
    (hs : s < w.wheel.length) (hp : w.pos + j ≤ s) (hone : ∀ i, cnt w t i = if i = s then 1 else 0)
    (h : ticks per j w = some w') :
    w'.fired.count t = w.fired.count t ∧ w'.pos = w.pos + j ∧ w'.wheel.length = w.wheel.length ∧
      ∀ i, cnt w' t i = if i = s then 1 else 0 := by
  induction j generalizing w with
  | zero => cases h; exact ⟨rfl, rfl, rfl, hone⟩
  | succ j ih =>
    rw [ticks] at h
    split at h
    · cases h
    · rename_i w1 h1
      obtain ⟨ts, e1, e2, e3, e4, _, _, e7⟩ := tick_spec h1
      have hnot : t ∉ ts := by
        have := hone w.pos
        rw [if_neg (by omega), cnt, List.getD_eq_getElem?_getD, e1] at this
        exact List.count_eq_zero.mp this
      rw [if_neg (by omega)] at e3
      obtain ⟨r1, r2, r3, r4⟩ := ih (w := w1) (by omega) (by omega)
        (fun i => by rw [e7 t i hnot]; exact hone i) h
      refine ⟨?_, by omega, by omega, r4⟩
      rw [r1, e2, List.count_append, List.count_eq_zero.mpr hnot]; rfl

/-- A timer whose period is `k` whole intervals (`k ≥ 1`), added to a wheel in which its slot is
still ahead of the end, is run by no earlier tick and exactly once by the tick number `k + 1` — as
long as no other timer makes the wheel panic.
Missing: slots beyond the last one, the extra tick, and one-shot timers (refuted:
`C68_every_period_drifts_violated`, `C68_tick_panics_violated`, `C68_no_wrap_violated` and
others). -/
theorem C68_fires_on_its_tick_partial (per : Nat → Int) (w : Wheel) (t k : Nat) (hi : w.interval > 0)
    (hk : (per t).tdiv w.interval = k) (hk1 : k ≥ 1) (hfit : w.pos + k < w.wheel.length)
    (hsize : w.wheelSize = w.wheel.length) (hnew : ∀ i, cnt w t i = 0) :
    ∃ w1, addTimer per w t = some w1 ∧ w1.fired = w.fired ∧
      (∀ j w2, j ≤ k → ticks per j w1 = some w2 → w2.fired.count t = w.fired.count t) ∧
      (∀ w2 w3, ticks per k w1 = some w2 → tick per w2 = some w3 →
        w3.fired.count t = w.fired.count t + 1) := by
  obtain ⟨l, hl⟩ : ∃ l, w.wheel[w.pos + k]? = some l := ⟨_, List.getElem?_eq_getElem hfit⟩
  have hput : ∃ w1, put w ((k : Int) + w.pos) t = some w1 := by
    unfold put
    rw [if_neg (by omega), show ((k : Int) + w.pos).toNat = w.pos + k by omega, hl]
    exact ⟨_, rfl⟩
  obtain ⟨w1, hput⟩ := hput
  obtain ⟨a1, a2, a3, a4, a5, a6⟩ := put_spec hput
  have hone : ∀ i, cnt w1 t i = if i = w.pos + k then 1 else 0 := by
    intro i
    rw [a1, hnew, show ((k : Int) + w.pos).toNat = w.pos + k by omega]
    simp
  refine ⟨w1, ?_, a4, fun j w2 hj h2 => ?_, fun w2 w3 h2 h3 => ?_⟩
  · unfold addTimer addedPosition
    rw [if_neg (by omega), hk]
    simp only
    rw [if_neg (by omega), if_neg (by omega)]
    exact hput
  · rw [(wait_in_slot j t (w.pos + k) (by omega) (by omega) hone h2).1, a4]
  · obtain ⟨r1, r2, r3, r4⟩ := wait_in_slot k t (w.pos + k) (by omega) (by omega) hone h2
    obtain ⟨ts, e1, e2, _⟩ := tick_spec h3
    have hc : ts.count t = 1 := by
      have := r4 w2.pos
      rw [if_pos (by omega), cnt, List.getD_eq_getElem?_getD, e1] at this
      exact this
    rw [e2, List.count_append, hc, r1, a4]

/-- A concrete wheel of eight slots: a period of three intervals fires on the fourth tick. -/
example : ∃ w w1 w4 w5, init 10 8 = some w ∧ addTimer (fun _ => 30) w 7 = some w1 ∧
    ticks (fun _ => 30) 3 w1 = some w4 ∧ w4.fired = [] ∧
    ticks (fun _ => 30) 4 w1 = some w5 ∧ w5.fired = [7] :=
  ⟨_, _, _, _, rfl, rfl, rfl, rfl, rfl, rfl⟩

/-- A period that reaches past the end of the wheel, although it is shorter than one turn, panics:
positions do not wrap around. -/
theorem C68_no_wrap_violated (per : Nat → Int) (w : Wheel) (t k : Nat) (hi : w.interval > 0)
    (hk : (per t).tdiv w.interval = k) (hk1 : k ≥ 1) (hover : w.wheel.length ≤ w.pos + k)
    (hsize : w.wheelSize = w.wheel.length) : addTimer per w t = none := by
  unfold addTimer addedPosition
  rw [if_neg (by omega), hk]
  simp only
  by_cases e : (k : Int) + w.pos > w.wheelSize
  · rw [if_pos e]
  · rw [if_neg e, if_neg (by omega)]
    unfold put
    rw [if_neg (by omega), List.getElem?_eq_none (by omega)]

/-- Such wheels and periods exist: at any position but the first, some period shorter than a turn. -/
example : ∃ w w2, init 10 8 = some w ∧ ticks (fun _ => 30) 6 w = some w2 ∧
    addTimer (fun _ => 30) w2 1 = none := ⟨_, _, rfl, rfl, rfl⟩

/-- A one-shot timer (period zero) does not wait for its deadline: it runs inside `AddTimer`. -/
theorem C68_one_shot_runs_at_once_violated (per : Nat → Int) (w : Wheel) (t : Nat)
    (hi : w.interval > 0) (h0 : per t = 0) (hp : (w.pos : Int) ≤ w.wheelSize) :
    addTimer per w t = some { w with fired := w.fired ++ [t] } := by
  unfold addTimer addedPosition
  rw [if_neg (by omega), h0]
  simp only [Int.zero_tdiv, Int.zero_add]
  rw [if_neg (by omega), if_pos trivial]
  unfold checkAndAddAgain
  rw [if_neg (by omega)]

example := C68_one_shot_runs_at_once_violated (fun _ => 0) ⟨4, [[], [3], [], []], 10, 1, [5]⟩ 7 (by decide) rfl (by decide)

/-- A ticking timer with a period of one interval fires on every second tick only, and brings the
wheel down on the first turn when the number of slots is odd. -/
theorem C68_period_drifts_violated :
    ∃ w w1 w2, init 10 4 = some w ∧ addTimer (fun _ => 10) w 7 = some w1 ∧
      ticks (fun _ => 10) 8 w1 = some w2 ∧ w2.fired = [7, 7, 7, 7] ∧
      (∃ v v1, init 10 5 = some v ∧ addTimer (fun _ => 10) v 7 = some v1 ∧
        ticks (fun _ => 10) 4 v1 = none) :=
  ⟨_, _, _, rfl, rfl, rfl, rfl, _, _, rfl, rfl, rfl⟩

end Memar.Timer.Wheel
