import Verif.Timer.WheelProps
import Verif.Timer.Driver
import Verif.Timer.TimingProps

/-!
# More about timing wheels (C68) and the loop of a timing (C147)
-/

namespace Memar.Timer.Wheel

/-- **C68**: a wheel is made exactly for sizes that are not negative; it has that many slots, all of them empty, starts at the first one and
has run nothing. -/
theorem C68_made (interval size : Int) :
    (init interval size = none ↔ size < 0) ∧
    ∀ w, init interval size = some w → (w.wheel.length : Int) = size ∧ w.wheelSize = size ∧ (∀ s ∈ w.wheel, s = []) ∧ w.pos = 0 ∧
      w.fired = [] ∧ w.interval = interval := by
  unfold init
  refine ⟨by split <;> simp [*], fun w h => ?_⟩
  split at h
  · simp at h
  · injection h with h
    subst h
    refine ⟨by simp; omega, rfl, fun s hs => List.eq_of_mem_replicate hs, rfl, rfl, rfl⟩

example : init 10 0 = some ⟨0, [], 10, 0, []⟩ ∧ init 10 1 = some ⟨1, [[]], 10, 0, []⟩ := ⟨rfl, rfl⟩

/-- The slot after slot `p` of a wheel with `n` slots. -/
def nextSlot (n p : Nat) : Nat := if p + 1 = n then 0 else p + 1

/-- **C68**: a periodic timer that is alone in the slot that is due is run by the tick and put `k` slots after the slot that is due next, `k` being its
period in ticks, as long as that slot is not beyond the last one; also a period of one nanosecond and of less than one tick.
Missing: slots beyond the last one, the extra tick, and one-shot timers (refuted:
`C68_every_period_drifts_violated`, `C68_tick_panics_violated`, `C68_no_wrap_violated` and
others). -/
theorem C68_runs_again_partial (per : Nat → Int) (w : Wheel) (t k : Nat) (hi : w.interval > 0) (hp : per t > 0)
    (hk : (per t).tdiv w.interval = k) (hs : w.wheel[w.pos]? = some [t]) (hfit : nextSlot w.wheel.length w.pos + k < w.wheel.length) :
    ∃ w' l, tick per w = some w' ∧ w'.fired = w.fired ++ [t] ∧ w'.pos = nextSlot w.wheel.length w.pos ∧
      w'.wheel[nextSlot w.wheel.length w.pos + k]? = some (l ++ [t]) := by
  have hlt : w.pos < w.wheel.length := (List.getElem?_eq_some_iff.1 hs).1
  have hpos : (incrementTickPosition w).pos = nextSlot w.wheel.length w.pos := by
    unfold incrementTickPosition nextSlot
    split <;> split <;> simp <;> omega
  have hint : (incrementTickPosition w).interval = w.interval := by unfold incrementTickPosition; split <;> rfl
  have hfired : (incrementTickPosition w).fired = w.fired := by unfold incrementTickPosition; split <;> rfl
  obtain ⟨l, hl⟩ : ∃ l, (w.wheel.set w.pos [])[nextSlot w.wheel.length w.pos + k]? = some l :=
    ⟨_, List.getElem?_eq_getElem (by simpa using hfit)⟩
  have hto : ((k : Int) + (nextSlot w.wheel.length w.pos : Nat)).toNat = nextSlot w.wheel.length w.pos + k := by omega
  unfold tick
  rw [hs]
  simp only [runSlot, checkAndAddAgain, if_pos hp, addedPosition, hint, hk, hpos]
  rw [if_neg (by omega)]
  simp only [put]
  rw [if_neg (by omega), hto, hl]
  refine ⟨_, l, rfl, by simp [hfired], rfl, ?_⟩
  simp [hfit]

example : ∃ w w1, init 10 4 = some w ∧ addTimer (fun _ => 10) w 7 = some w1 ∧ ∃ w2, tick (fun _ => 10) w1 = some w2 ∧
    w2.wheel[w2.pos]? = some [7] ∧ nextSlot w2.wheel.length w2.pos + 1 < w2.wheel.length := ⟨_, _, rfl, rfl, _, rfl, rfl, by decide⟩
example : (∀ t : Nat, ((fun _ => (1 : Int)) t).tdiv 10 = (0 : Nat)) ∧
    nextSlot 3 2 + 0 < 3 ∧ tick (fun _ => 1) ⟨3, [[], [], [7]], 10, 2, []⟩ = some ⟨3, [[7], [], []], 10, 0, [7]⟩ := ⟨fun _ => rfl, by decide, rfl⟩

end Memar.Timer.Wheel

namespace Memar.Timer.Queue
open Memar.Timer

/-- **C147**: after one round the loop runs again when the time it asked to sleep for is over, or at once if that time is not positive, and as much
later as the scheduler makes it. -/
theorem C147_wakes (r : Round) (tg tg1 tg2 : Tg) (now d : Int) (h : startRound r.fuel tg now = .ok (tg1, d)) (hc : runCalls r.calls tg1 = .ok tg2) :
    driver [r] tg now = .ok (tg2, max now (now + d) + r.late) := by
  simp only [driver, h, Out.bind, hc, wakeAt]
  congr 2
  split <;> omega

example : ∃ tg tg1 tg2, ∃ d : Int, runCalls [.start 1 10 0, .start 2 25 0] Tg.init = .ok tg ∧ startRound 9 tg 12 = .ok (tg1, d) ∧
    runCalls [.start 3 40 12] tg1 = .ok tg2 ∧ driver [⟨9, [.start 3 40 12], 2⟩] tg 12 = .ok (tg2, max 12 (12 + d) + 2) := by
  obtain ⟨tg, e, h⟩ := ends_elim (cs := [.start 1 10 0, .start 2 25 0])
    (P := fun tg => match startRound 9 tg 12 with
      | .ok r => (match runCalls [.start 3 40 12] r.1 with
        | .ok _ => true
        | _ => false)
      | _ => false) (by decide +kernel)
  split at h
  · rename_i r hr
    split at h
    · rename_i tg2 h2
      exact ⟨tg, r.1, tg2, r.2, e, hr, h2, C147_wakes ⟨9, [.start 3 40 12], 2⟩ tg r.1 tg2 12 r.2 hr h2⟩
    · cases h
  · cases h

end Memar.Timer.Queue
