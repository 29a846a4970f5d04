import Verif.Timer.SignalProps

/-!
# New tickers: timer/tick.go (C175)

`Async.ToString` (timer/timer-async.go:281-289) divides a number of nanoseconds by one of seconds, which are different types, so that it does not compile;
it is not modelled.
-/

namespace Memar.Timer.Queue
open Memar Memar.Timer

/-- timer/tick.go:15-33 `NewSyncTick` (whose callback is never nil) and `NewAsyncTick` with the new timer `t`: the error of `Init` is dropped, and the
period is set (timer/timer-async.go:269-278) before `Start` finds out that there is no callback. -/
def newTick (hasCallback : Bool) (tg : Tg) (t : Nat) (first interval now : Int) : Out (Tg × Option Err) :=
  if first < 1 ∨ interval < 1 then .ok (tg, some .negativeDuration)
  else if hasCallback then start (tg.setPeriod t interval) t first now
  else .ok (tg.setPeriod t interval, some .notInit)

/-- C175: a new ticker, when the call returns, is armed at `now + first` with its interval as period; it is an error, and nothing is armed, exactly when
there is no callback or one of the durations is below one; nothing fires and no other timer is changed. Missing: that a failed call leaves the timer as it was, refuted below. (The call can fail to return as starting
any timer can, see C21.) -/
theorem C175_new_tick_partial (tg tg' : Tg) (hr : Reachable tg) (t : Nat) (first interval now : Int) (cb : Bool) (e : Option Err)
    (hu : (tg.tm t).status = .unset) (h : newTick cb tg t first interval now = .ok (tg', e)) :
    (e = none ↔ cb = true ∧ 1 ≤ first ∧ 1 ≤ interval) ∧
    (armed tg').due = (if e = none then upd (armed tg).due t (some (now + first)) else (armed tg).due) ∧
    (∀ u, u ≠ t → (armed tg').period u = (armed tg).period u) ∧ (e = none → (armed tg').period t = interval) ∧
    tg'.fired = tg.fired := by
  have g := reachable_good hr
  by_cases hd : first < 1 ∨ interval < 1
  · rw [newTick, if_pos hd] at h
    cases h
    refine ⟨by simp; omega, by simp, fun _ _ => rfl, by simp, rfl⟩
  · cases cb with
    | false =>
      rw [newTick, if_neg hd, if_neg (by simp)] at h
      cases h
      refine ⟨by simp, ?_, ?_, by simp, rfl⟩
      · rw [setPeriod_armed]; simp
      · intro u hu; rw [setPeriod_armed]; simp [upd, hu]
    | true =>
      rw [newTick, if_neg hd, if_pos rfl] at h
      have ht : tick tg t first interval now = .ok (tg', e) := by rw [tick, if_neg hd]; exact h
      obtain ⟨new, q1, q2⟩ := call_spec (c := .tick t first interval now) g ht
      obtain ⟨n, d1, d2, d3⟩ := q2
      have hg : Good none (tg.setPeriod t interval) := setPeriod_good g t (by omega)
      have he : e = none := by
        unfold start at h
        rw [if_neg (by omega), if_neg] at h
        · cases ha : addTimer ((((tg.setPeriod t interval).setStatus t .waiting).setWhen t (now + first)).setTiming t true) t with
          | ok r => rw [ha] at h; simp only [Out.bind, Out.ok.injEq, Prod.mk.injEq] at h; exact h.2.symm
          | _ => rw [ha] at h; cases h
        · have hu' : ((tg.setPeriod t interval).tm t).status = .unset := by simp [Tg.setPeriod, hu]
          rintro (c | c)
          · exact c hu'
          · rw [hg.timing t (by simp)] at c
            exact unset_out hg (Or.inl hu') c
      subst he
      refine ⟨by simp; omega, d1, d3, fun _ => ?_, by rw [q1, n, List.append_nil]⟩
      rw [d2 rfl]; simp [upd]

example : ∃ tg, runCalls [.start 1 10 0, .start 2 5 0] Tg.init = .ok tg ∧
    (match newTick true tg 3 4 6 1 with
      | .ok (tg', none) => decide ((tg.tm 3).status = .unset ∧ (armed tg').due 3 = some 5 ∧ (armed tg').period 3 = 6)
      | _ => false) = true :=
  ends_elim (by decide +kernel)

/-- C175 violated: without a callback the ticker is handed out all the same, and calling `Init` on it gives it the callback, so that a later `Start`
makes it tick with the interval of the call that failed: the failed call left the period behind. -/
theorem C175_failed_period_violated (tg : Tg) (t : Nat) (first interval now : Int) (hf : 1 ≤ first) (hi : 1 ≤ interval) :
    ∃ tg', newTick false tg t first interval now = .ok (tg', some .notInit) ∧ (armed tg').period t = interval :=
  ⟨_, by rw [newTick, if_neg (by omega)]; rfl, by simp [armed, Tg.setPeriod]⟩

example := C175_failed_period_violated Tg.init 1 5 7 0 (by decide) (by decide)

end Memar.Timer.Queue
