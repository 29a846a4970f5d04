import Verif.Tcp.Life
import Verif.Tcp.TimingProps

/-!
# C141: closing, resetting and reusing a TCP stream
-/

namespace Memar.Tcp

/-- What happens to a stream: its timers are set up, fire, are switched on or off or reset; the stream is
reset, taken down or closed. -/
inductive LifeEvent
  | timer (e : TimerEvent)
  | timingReset
  | reset
  | takeDown
  | close

/-- One such event; `stopped` is the answer of an initialised timer to being stopped. -/
def Living.step (stopped : Option LifeErr) (s : Living) : LifeEvent → Living
  | .timer e => { s with timing := timerStep s.timing e }
  | .timingReset => { s with timing := (timingReinit stopped s.timing).1 }
  | .reset => s.reset.1
  | .takeDown => (s.deinit stopped).1
  | .close => (s.close stopped).1

theorem step_armed (stopped : Option LifeErr) (s : Living) (e : LifeEvent) :
    (s.step stopped e).timing.armed = s.timing.armed := by
  cases e with
  | timer e => exact C93_never_armed_violated s.timing [e]
  | timingReset => rfl
  | reset => rfl
  | takeDown => simp only [Living.step, Living.deinit]; split <;> rfl
  | close => simp only [Living.step, Living.close, Living.deinit]; split <;> rfl

theorem run_armed (stopped : Option LifeErr) (s : Living) (es : List LifeEvent) :
    (es.foldl (Living.step stopped) s).timing.armed = s.timing.armed := by
  induction es generalizing s with
  | nil => rfl
  | cons e es ih => rw [List.foldl_cons, ih, step_armed]

theorem deinit_unarmed (stopped : Option LifeErr) (s : Living) (h : s.timing.armed = []) :
    s.deinit stopped = (s, some .timerNotInit) := by
  simp [Living.deinit, timingDeinit, timerStop, h]

/-- C268 violated: no stream can be closed. For every stream that starts new, whatever its
configuration, the clock and what happened to it, closing it and taking it down report that the timer
was not initialised, and neither its receiving nor its sending half is ever taken down. -/
theorem C268_close_always_fails_violated (stopped : Option LifeErr) (s : Living) (es : List LifeEvent)
    (h : s.timing.armed = []) (hr : s.recvDown = 0) (hs : s.sendDown = 0) :
    let t := es.foldl (Living.step stopped) s
    t.close stopped = (t, some .timerNotInit) ∧ t.deinit stopped = (t, some .timerNotInit) ∧
    t.recvDown = 0 ∧ t.sendDown = 0 := by
  have ha : (es.foldl (Living.step stopped) s).timing.armed = [] := by rw [run_armed, h]
  refine ⟨deinit_unarmed _ _ ha, deinit_unarmed _ _ ha, ?_⟩
  clear ha
  induction es generalizing s with
  | nil => exact ⟨hr, hs⟩
  | cons e es ih =>
    apply ih
    · rw [step_armed, h]
    · cases e with
      | timer e => exact hr
      | timingReset => exact hr
      | reset => exact hr
      | takeDown => simpa [Living.step, deinit_unarmed _ _ h] using hr
      | close => simpa [Living.step, Living.close, deinit_unarmed _ _ h] using hr
    · cases e with
      | timer e => exact hs
      | timingReset => exact hs
      | reset => exact hs
      | takeDown => simpa [Living.step, deinit_unarmed _ _ h] using hs
      | close => simpa [Living.step, Living.close, deinit_unarmed _ _ h] using hs

example := C268_close_always_fails_violated none ⟨⟨0, .listen, 0, [], 0⟩, ⟨⟨false, 0, 0, 0, 0, 0⟩, ⟨false, 0, 0⟩, []⟩, 0, 0⟩
  [.timer (.init 7200 75 40 5), .close, .reset] rfl rfl rfl

/-- C268: were the timer running, closing would stop it, then take down both halves once; an error of
the timer is reported and leaves both up.
Missing: that closing works on a stream as it is, and resetting (refuted:
`C268_close_always_fails_violated`, `C268_reset_does_nothing_violated`,
`C268_init_keeps_retries_violated` and others). -/
theorem C268_close_with_running_timer_partial (s : Living) (h : s.timing.armed ≠ []) :
    s.close none = ({ s with recvDown := s.recvDown + 1, sendDown := s.sendDown + 1 }, none) ∧
    ∀ e : LifeErr, s.close (some e) = (s, some e) := by
  simp [Living.close, Living.deinit, timingDeinit, timerStop, h]

example : let s : Living := ⟨⟨0, .listen, 0, [], 0⟩, ⟨⟨false, 0, 0, 0, 0, 0⟩, ⟨false, 0, 0⟩, []⟩, 0, 0⟩
    (([.timer (.init 7200 75 40 5), .timer (.enable true), .close, .reset] : List LifeEvent).foldl
      (Living.step none) s).close none =
      (⟨⟨0, .listen, 0, [], 0⟩, ⟨⟨true, 7200, 75, 0, 7205, 0⟩, ⟨true, 40, 45⟩, []⟩, 0, 0⟩, some .timerNotInit) := by decide

/-- C268 violated: resetting a stream changes nothing of it: it is not like new unless it was so. -/
theorem C268_reset_does_nothing_violated (s fresh : Living) (h : s ≠ fresh) :
    s.reset = (s, none) ∧ s.reset.1 ≠ fresh := ⟨rfl, h⟩

example := C268_reset_does_nothing_violated ⟨⟨1460, .established, 7, [1, 2], 2⟩, ⟨⟨false, 0, 0, 0, 0, 0⟩, ⟨false, 0, 0⟩, []⟩, 0, 0⟩
  ⟨⟨0, .listen, 0, [], 0⟩, ⟨⟨false, 0, 0, 0, 0, 0⟩, ⟨false, 0, 0⟩, []⟩, 0, 0⟩ (by decide)

/-- C141: keep-alive timing that is reset and then set up is as if set up for the first time, except
that it still remembers when the former connection was last used. -/
theorem C141_keep_alive_reset_then_init (idle interval now : Int) (k fresh : Checker) (hf : fresh.retryCount = 0) :
    kaInit idle interval now (kaReinit k) = kaInit idle interval now { fresh with lastUse := k.lastUse } := by
  simp [kaInit, kaReinit, hf]

example := C141_keep_alive_reset_then_init 50 5 10 ⟨true, 1, 1, 3, 4, 10⟩ ⟨false, 0, 0, 0, 0, 0⟩ rfl

/-- C268 violated for setting up without a reset: keep-alive and user timeout go on counting the retries
of the former connection, so that the new one is closed after fewer unanswered probes. -/
theorem C268_init_keeps_retries_violated (idle interval now used later : Int) (k : Checker) (hr : probes < k.retryCount)
    (hu : k.lastUse = used) (hl : now + idle ≤ later) :
    (kaCheck .established used later (setEnable (kaInit idle interval now k).1 true)).closed = true ∧
    (kaCheck .established used later (setEnable (kaInit idle interval now k).1 true)).probed = false ∧
    (utCheck .established used later (utInit idle now k).1).closed = true := by
  have h1 : ¬ (now + idle - later > 0) := by omega
  have h2 : ¬ k.retryCount ≤ probes := by omega
  refine ⟨?_, ?_, ?_⟩
  · simp [kaCheck, setEnable, kaInit, hu, h2]; rw [if_neg (by omega)]
  · simp [kaCheck, setEnable, kaInit, hu, h2]; rw [if_neg (by omega)]
  · simp [utCheck, utInit, hu, h2]; rw [if_neg (by omega)]

example : (kaCheck .established 3 100 (setEnable (kaInit 50 5 10 ⟨true, 1, 1, 3, 4, 10⟩).1 true)).closed = true := by decide

/-- C268 violated for a reset alone: a keep-alive that is reset and switched on again has no interval and
was due at time zero: at every positive time it probes at once and asks to be called again in the past. -/
theorem C268_reset_alone_probes_at_once_violated (now : Int) (k : Checker) (hn : 0 < now) :
    let c := kaCheck .established k.lastUse now (setEnable (kaReinit k) true)
    c.probed = true ∧ c.next < 0 ∧ c.state.idle = k.idle := by
  simp [kaCheck, setEnable, kaReinit]
  rw [if_neg (by omega)]
  simp; omega

example := C268_reset_alone_probes_at_once_violated 100 ⟨true, 1, 1, 3, 4, 10⟩ (by decide)

/-- C141: a set-up user timeout is on and first due one keep-alive idle time from now. -/
theorem C141_user_timeout_init (kaIdle now : Int) (k : Checker) :
    (utInit kaIdle now k).1.enable = true ∧ (utInit kaIdle now k).1.nextCheck = now + kaIdle ∧
    (utInit kaIdle now k).1.idle = kaIdle ∧ (utInit kaIdle now k).2 = kaIdle := ⟨rfl, rfl, rfl, rfl⟩

/-- C141: a reset user timeout stays on with no retries counted; setting it up again gives the timing of
one set up for the first time, but for the memory of the last use. -/
theorem C141_user_timeout_reset (kaIdle now : Int) (k fresh : Checker) (hf : fresh.retryCount = 0)
    (hi : fresh.interval = k.interval) :
    (utReinit k).enable = true ∧
    utInit kaIdle now (utReinit k) = utInit kaIdle now { fresh with lastUse := k.lastUse } := by
  simp [utInit, utReinit, hf, hi]

example := C141_user_timeout_reset 7200 10 ⟨true, 1, 9, 3, 4, 10⟩ ⟨false, 0, 9, 0, 0, 0⟩ rfl rfl

/-- C268 violated: resetting the timing of a stream leaves its delayed acknowledgment as the former
connection had it, and reports that the timer was not initialised. -/
theorem C268_timing_reset_violated (stopped : Option LifeErr) (t : Timing) (h : t.armed = []) :
    (timingReinit stopped t).1.de = t.de ∧ (timingReinit stopped t).2 = some .timerNotInit := by
  simp [timingReinit, daReinit, timerStop, h]

example := C268_timing_reset_violated none ⟨⟨true, 7200, 75, 0, 7205, 3⟩, ⟨true, 40, 45⟩, []⟩ rfl

end Memar.Tcp
