import Verif.Timer.Signal
import Verif.Timer.TimingProps

/-!
# C144: timers that signal, and timers set up again
-/

namespace Memar.Timer.Queue
open Memar.Timer

/-- How often the timer `t` has fired. -/
def firings (t : Nat) (tg : Tg) : Nat := (tg.fired.filter fun f => f.1 = t).length

theorem handlers_open (s : SyncTimer) (h : s.closed = false) (l : List (Nat × Int)) :
    SyncTimer.handlers l s = .ok { s with signal := s.signal || !l.isEmpty } := by
  induction l generalizing s with
  | nil => simp [SyncTimer.handlers]
  | cons x l ih =>
    have : s.handler = .ok { s with signal := true } := by simp [SyncTimer.handler, h]
    rw [SyncTimer.handlers, this]
    show SyncTimer.handlers l { s with signal := true } = _
    rw [ih { s with signal := true } h]
    simp

theorem call_fired {tg tg' : Tg} {c : Call} {r : Option Err} (g : Good none tg) (h : c.run tg = .ok (tg', r)) :
    tg'.fired = tg.fired ++ tg'.fired.drop tg.fired.length := by
  obtain ⟨new, q, _⟩ := call_spec g h
  rw [q]; simp

/-- C144: after a call a signal is waiting exactly if one was before or the timer fired in the call, however often; the
call is never held up and never fails because of the signal. Receiving takes the one signal. -/
theorem C144_one_signal (t : Nat) (s : SyncTimer) (hs : Reachable s.tg) (ho : s.closed = false) (c : Call) (tg' : Tg)
    (r : Option Err) (h : c.run s.tg = .ok (tg', r)) :
    s.call t c = .ok ⟨tg', s.signal || decide (firings t s.tg < firings t tg'), false⟩ ∧
    s.receive.2 = s.signal ∧ s.receive.1.signal = false ∧ s.receive.1.tg = s.tg := by
  have hf := call_fired (reachable_good hs) h
  refine ⟨?_, ?_, ?_, ?_⟩
  · unfold SyncTimer.call
    rw [h]
    simp only [Out.bind]
    have := handlers_open { s with tg := tg' } ho ((tg'.fired.drop s.tg.fired.length).filter fun f => decide (f.1 = t))
    rw [this]
    simp only [ho]
    congr 2
    have e : firings t tg' = firings t s.tg +
        ((tg'.fired.drop s.tg.fired.length).filter fun f => decide (f.1 = t)).length := by
      unfold firings
      conv => lhs; rw [hf]
      rw [List.filter_append, List.length_append]
    generalize ((tg'.fired.drop s.tg.fired.length).filter fun f => decide (f.1 = t)) = l at e
    cases l with
    | nil => simp [e]
    | cons x l => simp [e]
  · unfold SyncTimer.receive; split <;> simp_all
  · unfold SyncTimer.receive; split <;> simp_all
  · unfold SyncTimer.receive; split <;> rfl

example : ∃ s : SyncTimer, Reachable s.tg ∧ s.closed = false ∧ ∃ tg' r, (Call.check 9 12).run s.tg = .ok (tg', r) ∧
    s.call 1 (.check 9 12) = .ok ⟨tg', s.signal || decide (firings 1 s.tg < firings 1 tg'), false⟩ := by
  obtain ⟨tg, e, h⟩ := ends_elim (cs := [.start 1 10 0, .start 2 25 0])
    (P := fun tg => match (Call.check 9 12).run tg with
      | .ok _ => true
      | _ => false) (by decide +kernel)
  split at h
  · rename_i r hr
    exact ⟨⟨tg, false, false⟩, reach e, rfl, r.1, r.2, hr, (C144_one_signal 1 ⟨tg, false, false⟩ (reach e) rfl (.check 9 12) r.1 r.2 hr).1⟩
  · cases h

theorem run_count (t : Nat) (ops : List (Option Call)) (s s' : SyncTimer) (n n' : Nat) (g : Good none s.tg)
    (ho : s.closed = false) (h : SyncTimer.run t ops (s, n) = .ok (s', n'))
    (hc : n + (if s.signal then 1 else 0) ≤ firings t s.tg) :
    n' + (if s'.signal then 1 else 0) ≤ firings t s'.tg ∧
      runCalls (ops.filterMap id) s.tg = .ok s'.tg ∧ s'.closed = false := by
  induction ops generalizing s n with
  | nil =>
    simp only [SyncTimer.run, Out.ok.injEq, Prod.mk.injEq] at h
    obtain ⟨rfl, rfl⟩ := h
    exact ⟨hc, rfl, ho⟩
  | cons o ops ih =>
    cases o with
    | none =>
      simp only [SyncTimer.run, SyncTimer.receive] at h
      by_cases hsg : s.signal = true
      · simp only [hsg, if_true] at h hc
        exact ih { s with signal := false } (n + 1) g ho h (by simpa using hc)
      · rw [Bool.not_eq_true] at hsg
        simp only [hsg] at h
        exact ih s n g ho h hc
    | some c =>
      simp only [SyncTimer.run, SyncTimer.call] at h
      cases hr : c.run s.tg with
      | ok r =>
        obtain ⟨tg1, e⟩ := r
        rw [hr] at h
        simp only [Out.bind] at h
        have hh := handlers_open { s with tg := tg1 } ho
          ((tg1.fired.drop s.tg.fired.length).filter fun f => decide (f.1 = t))
        rw [hh] at h
        simp only at h
        have hf := call_fired g hr
        have e : firings t tg1 = firings t s.tg +
            ((tg1.fired.drop s.tg.fired.length).filter fun f => decide (f.1 = t)).length := by
          unfold firings
          conv => lhs; rw [hf]
          rw [List.filter_append, List.length_append]
        generalize ((tg1.fired.drop s.tg.fired.length).filter fun f => decide (f.1 = t)) = l at e h
        obtain ⟨a, b, d⟩ := ih ⟨tg1, s.signal || !l.isEmpty, s.closed⟩ n (call_good g hr) ho h (by
          simp only
          cases l with
          | nil => simpa [e] using hc
          | cons x l =>
            simp only [List.length_cons] at e
            simp only [List.isEmpty_cons, Bool.not_false, Bool.or_true, if_true]
            split at hc <;> omega)
        refine ⟨a, ?_, d⟩
        simp only [List.filterMap_cons, id, runCalls, hr, Out.bind]
        exact b
      | _ => rw [hr] at h; simp [Out.bind] at h

/-- C144: over every history, no more signals are received than the timer has fired, one of them at most still waiting;
and a signal is received only after a deadline the timer was armed with has come, and not before it was armed. -/
theorem C144_signals_are_firings (t : Nat) (ops : List (Option Call)) (s : SyncTimer) (n : Nat)
    (h : SyncTimer.run t ops (SyncTimer.init, 0) = .ok (s, n)) :
    n + (if s.signal then 1 else 0) ≤ (s.tg.fired.filter fun f => f.1 = t).length ∧
    History (ops.filterMap id) ⟨fun _ => none, fun _ => 0⟩ s.tg.fired (armed s.tg) := by
  obtain ⟨a, b, _⟩ := run_count t ops SyncTimer.init s 0 n good_init rfl h (by simp [SyncTimer.init])
  exact ⟨a, C61_callbacks_only_when_armed_and_due _ _ b⟩

/-- A ticker that fires three times before it is looked at gives one signal. -/
example : (match SyncTimer.run 1 [some (.tick 1 5 5 0), none, some (.check 9 5), some (.check 9 10), some (.check 9 15), none, none]
    (SyncTimer.init, 0) with | .ok (s, n) => n == 1 && s.tg.fired.length ≥ 2 | _ => false) = true := by decide +kernel

/-! ## Closing -/

theorem stop_status {tg tg' : Tg} (g : Good none tg) (t : Nat) (h : stop tg t = .ok (tg', none)) :
    ((tg'.tm t).status = .deleted ∨ (tg'.tm t).status = .removed) ∧
    ((tg.tm t).status ≠ .removed → (tg'.tm t).status = .deleted) := by
  unfold stop at h
  rcases g.rest t (by simp) with e | e | e | e | e | e <;> rw [e] at h <;> simp only at h
  · cases h
  · split at h
    · cases h; simp [Tg.setStatus]
    · cases h
  · cases h; simp [e]
  · cases h; simp [e]
  · split at h
    · cases h; simp [Tg.setStatus]
    · cases h
  · split at h
    · cases h; simp [Tg.setStatus]
    · cases h

/-- C233 violated: taking a timer down twice panics: the second time its channel is closed again. -/
theorem C233_deinit_twice_violated (t : Nat) (s s' : SyncTimer) (hs : Reachable s.tg)
    (h : s.deinit t = .ok (s', none)) : s'.deinit t = .panic := by
  unfold SyncTimer.deinit at h
  cases hst : stop s.tg t with
  | ok r =>
    obtain ⟨tg1, e⟩ := r
    rw [hst] at h
    simp only [Out.bind] at h
    cases e with
    | some e => simp at h
    | none =>
      simp only at h
      split at h
      · cases h
      · cases h
        unfold SyncTimer.deinit
        have hs1 := (stop_status (reachable_good hs) t hst).1
        have : stop tg1 t = .ok (tg1, none) := by
          unfold stop
          rcases hs1 with e | e <;> rw [e]
        simp only [this, Out.bind, if_true]
  | _ => rw [hst] at h; cases h

/-- C233 violated: a timer that has fired once, or was never started, cannot be taken down: the call reports that it is
not initialised and its channel stays open for ever. -/
theorem C233_deinit_after_firing_violated (t : Nat) (s : SyncTimer) (h : (s.tg.tm t).status = .unset) :
    s.deinit t = .ok (s, some .notInit) := by
  unfold SyncTimer.deinit stop
  rw [h]
  rfl

example := C233_deinit_after_firing_violated 1 SyncTimer.init rfl

/-- C233: otherwise taking down stops the timer and closes the channel.
Missing: taking down twice, or a timer that is not running, and starting again (refuted:
`C233_deinit_twice_violated`, `C233_deinit_after_firing_violated`, `C233_restart_violated` and
others). -/
theorem C233_deinit_partial (t : Nat) (s : SyncTimer) (hs : Reachable s.tg) (ho : s.closed = false)
    (hu : (s.tg.tm t).status ≠ .unset) :
    ∃ s', s.deinit t = .ok (s', none) ∧ s'.closed = true ∧ s'.signal = s.signal ∧ (armed s'.tg).due t = none := by
  obtain ⟨tg1, e, h⟩ := C21_stop_returns s.tg hs t
  have he : e = none := by
    have h' := h
    unfold stop at h'
    rcases (reachable_good hs).rest t (by simp) with x | x | x | x | x | x <;> rw [x] at h' <;> simp only at h'
    · exact absurd x hu
    all_goals first
      | (cases h'; rfl)
      | (split at h'
         · cases h'; rfl
         · cases h')
  subst he
  refine ⟨{ s with tg := tg1, closed := true }, ?_, rfl, rfl, ?_⟩
  · unfold SyncTimer.deinit
    rw [h]
    simp [Out.bind, ho]
  · rcases (stop_status (reachable_good hs) t h).1 with e | e <;> simp [armed, e]

example : ∃ (s s' : SyncTimer), Reachable s.tg ∧ s.deinit 1 = .ok (s', none) ∧ s'.deinit 1 = .panic := by
  obtain ⟨tg, e, h⟩ := ends_elim (cs := [.start 1 10 0, .start 2 25 0]) (P := fun tg => decide ((tg.tm 1).status ≠ .unset)) (by decide +kernel)
  obtain ⟨s', h1, -⟩ := C233_deinit_partial 1 ⟨tg, false, false⟩ (reach e) rfl (of_decide_eq_true h)
  exact ⟨_, s', reach e, h1, C233_deinit_twice_violated 1 _ s' (reach e) h1⟩

/-! ## Setting up again -/

/-- C233 violated: a timer that was set up again can never be started: every `Start` after it reports that the timer
runs already. -/
theorem C233_restart_violated (tg tg' : Tg) (hr : Reachable tg) (t : Nat) (h : reinitTimer tg t = .ok (tg', none))
    (d now : Int) (hd : d ≥ 1) : start tg' t d now = .ok (tg', some .alreadyStarted) := by
  unfold reinitTimer at h
  cases hst : stop tg t with
  | ok r =>
    obtain ⟨tg1, e⟩ := r
    rw [hst] at h
    simp only [Out.bind] at h
    cases e with
    | some e => simp at h
    | none =>
      cases h
      have hs1 := (stop_status (reachable_good hr) t hst).1
      have hne : ((tg1.setTiming t false).tm t).status ≠ .unset := by
        rcases hs1 with e | e <;> simp [Tg.setTiming, e]
      unfold start
      rw [if_neg (by omega), if_pos (.inl hne)]
  | _ => rw [hst] at h; cases h

/-- C233 violated: and when it was armed, resetting it panics: it counts as stopped but no longer knows its queue. -/
theorem C233_reset_after_reinit_violated (tg tg' : Tg) (hr : Reachable tg) (t : Nat)
    (ha : (armed tg).due t ≠ none) (h : reinitTimer tg t = .ok (tg', none)) (d now : Int) (hd : d ≥ 1) :
    reset tg' t d now = .panic := by
  unfold reinitTimer at h
  cases hst : stop tg t with
  | ok r =>
    obtain ⟨tg1, e⟩ := r
    rw [hst] at h
    simp only [Out.bind] at h
    cases e with
    | some e => simp at h
    | none =>
      cases h
      have hs1 := (stop_status (reachable_good hr) t hst).2 (by intro e; apply ha; simp [armed, e])
      unfold reset
      rw [if_neg (by omega)]
      have e1 : ((tg1.setTiming t false).tm t).status = .deleted := by simp [Tg.setTiming, hs1]
      have e2 : ((tg1.setTiming t false).tm t).timing = false := by simp [Tg.setTiming]
      rw [e1]
      simp only [e2]
      simp
  | _ => rw [hst] at h; cases h

example : ∃ tg tg', Reachable tg ∧ reinitTimer tg 1 = .ok (tg', none) ∧ start tg' 1 7 0 = .ok (tg', some .alreadyStarted) ∧ reset tg' 1 7 0 = .panic := by
  obtain ⟨tg, e, h⟩ := ends_elim (cs := [.start 1 10 0, .start 2 5 0])
    (P := fun tg => match reinitTimer tg 1 with
      | .ok (_, none) => decide ((armed tg).due 1 ≠ none)
      | _ => false) (by decide +kernel)
  split at h
  · rename_i tg' h1
    exact ⟨tg, tg', reach e, h1, C233_restart_violated tg tg' (reach e) 1 h1 7 0 (by decide),
      C233_reset_after_reinit_violated tg tg' (reach e) 1 (of_decide_eq_true h) h1 7 0 (by decide)⟩
  · cases h

/-- C233: a timer that is not running cannot be set up again, with whatever callback: the call reports that it is not
initialised and changes nothing. -/
theorem C233_reinit_idle_violated (tg : Tg) (t : Nat) (h : (tg.tm t).status = .unset) :
    reinitTimer tg t = .ok (tg, some .notInit) := by
  unfold reinitTimer stop
  rw [h]
  rfl

example := C233_reinit_idle_violated Tg.init 1 rfl

/-- C144: a new timer is armed at `now + d`, or an error is returned and nothing is armed: without a callback and for
durations below one. Waiting by channel panics for those durations. -/
theorem C144_new_timer (tg : Tg) (hr : Reachable tg) (t : Nat) (d now : Int) (cb : Bool)
    (hu : (tg.tm t).status = .unset) (hs : StartReturns tg) :
    ((cb = false ∨ d < 1) → ∃ e, newTimer cb tg t d now = .ok (tg, some e)) ∧
    (cb = true → d ≥ 1 → ∃ tg', newTimer cb tg t d now = .ok (tg', none) ∧
      (armed tg').due = upd (armed tg).due t (some (now + d))) ∧
    (d < 1 → after tg t d now = .panic) := by
  refine ⟨?_, ?_, ?_⟩
  · rintro (h | h)
    · exact ⟨_, by unfold newTimer; rw [h]; rfl⟩
    · unfold newTimer
      cases cb with
      | false => exact ⟨_, rfl⟩
      | true => exact ⟨.negativeDuration, by unfold start; rw [if_pos rfl, if_pos h]⟩
  · intro hc hd
    obtain ⟨tg', h⟩ := hs t d now hd hu
    refine ⟨tg', by unfold newTimer; rw [hc, if_pos rfl]; exact h, ?_⟩
    obtain ⟨new, _, q2⟩ := call_spec (c := .start t d now) (reachable_good hr) h
    rw [q2.2, if_pos rfl]
  · intro h
    unfold after start
    rw [if_pos h]
    rfl

example : ∃ tg, runCalls [.start 1 10 0, .start 2 5 0, .stop 2] Tg.init = .ok tg ∧
    decide ((armed tg).due 1 = some 10 ∧ (tg.tm 2).status = .deleted ∧ (tg.tm 3).status = .unset) = true :=
  ends_elim (by decide +kernel)

end Memar.Timer.Queue
