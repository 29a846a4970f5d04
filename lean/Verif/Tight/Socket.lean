import Verif.Net.SocketProps

/-!
# More about the timing of sockets (C116, C117)
-/

namespace Memar.Net.Socket

/-- **C116**: a socket is initialised with a limit exactly when the limit is positive and it was not initialised before; from then on its timer waits for
the moment after the limit. -/
theorem C116_init (now d : Int) :
    ((Sock.zero.init now d).2 = true ↔ 1 ≤ d) ∧
    (1 ≤ d → (Sock.zero.init now d).1.timer.active = true ∧ (Sock.zero.init now d).1.timer.whn = now + d) ∧
    (d < 1 → (Sock.zero.init now d).1.timer.active = false) ∧
    ∀ (now2 d2 : Int) , 1 ≤ d → ((Sock.zero.init now d).1.init now2 d2).2 = false ∧
      ((Sock.zero.init now d).1.init now2 d2).1 = (Sock.zero.init now d).1 := by
  by_cases h : d < 1
  · simp [Sock.init, Sock.zero, Timer.zero, Timer.init, Timer.start, h]; omega
  · simp only [Sock.init, Sock.zero, Timer.zero, Timer.init, Timer.start, h]
    refine ⟨by simp; omega, by simp, by simp [h], fun now2 d2 _ => ?_⟩
    by_cases h2 : d2 < 1 <;> simp [h2]

/-- **C116**: a socket that was initialised takes a new limit exactly when that is positive, and its timer then waits for the moment after it. A socket that
was not initialised takes none and says so. -/
theorem C116_reinit (s : Sock) (now d : Int) :
    ((s.reinit now d).2 = true ↔ 1 ≤ d ∧ s.timer.callback = true) ∧
    ((s.reinit now d).2 = true → (s.reinit now d).1.timer.active = true ∧ (s.reinit now d).1.timer.whn = now + d) ∧
    ((s.reinit now d).2 = false → (s.reinit now d).1 = s) ∧
    (Sock.zero.reinit now d).2 = false ∧ (∀ d0, (Sock.zero.init now d0).1.timer.callback = true) := by
  refine ⟨?_, ?_, ?_, ?_, fun d0 => ?_⟩
  · by_cases h : d < 1 <;> cases hc : s.timer.callback <;> simp [Sock.reinit, Timer.reset, h, hc] <;> omega
  · by_cases h : d < 1 <;> cases hc : s.timer.callback <;> simp [Sock.reinit, Timer.reset, h, hc]
  · by_cases h : d < 1 <;> cases hc : s.timer.callback <;> simp [Sock.reinit, Timer.reset, h, hc]
  · by_cases h : d < 1 <;> simp [Sock.reinit, Timer.reset, h, Sock.zero, Timer.zero]
  · by_cases h : d0 < 1 <;> simp [Sock.init, Sock.zero, Timer.zero, Timer.init, Timer.start, h]

example : (Sock.zero.init 5 10).2 = true ∧ ((Sock.zero.init 5 10).1.reinit 7 20).2 = true ∧ (Sock.zero.init 5 0).2 = false := by decide

/-- **C263**: taking away the limit stops the timer of the socket exactly when there is no limit for the other direction: `SetWriteTimeout` looks at the
field it does not set, and so does `SetReadTimeout`. A socket has no limits in either direction at first.
Missing: that the limit of its own direction counts, extending, and arming the timer (refuted:
`C263_read_write_swapped_violated`, `C263_extended_never_fires_violated`,
`C263_not_armed_violated` and others). -/
theorem C263_no_limit_stops_partial (s : Sock) (n1 n2 d : Int) (hd : d < 0) :
    (s.setWriteTimeout n1 n2 d).timer = (if s.writeDeadline = 0 then { s.timer with active := false } else s.timer) ∧
    (s.setReadTimeout n1 n2 d).timer = (if s.readDeadline = 0 then { s.timer with active := false } else s.timer) ∧
    Sock.zero.readDeadline = 0 ∧ Sock.zero.writeDeadline = 0 := by
  refine ⟨?_, ?_, rfl, rfl⟩
  · simp only [Sock.setWriteTimeout, Sock.setReadTimeoutI, if_pos hd]
    split <;> rfl
  · simp only [Sock.setReadTimeout, Sock.setWriteTimeoutI, if_pos hd, Timer.reset, if_pos (show d < 1 by omega)]
    by_cases h : s.readDeadline = 0 <;> simp [h, Timer.stop]

example : ((Sock.zero.init 5 10).1.setReadTimeout 6 6 (-1)).timer.active = false ∧
    (({ (Sock.zero.init 5 10).1 with readDeadline := 1, writeDeadline := 1 } : Sock).setReadTimeout 6 6 (-1)).timer.active = true := by decide

/-- C117 violated: a deadline that is exactly now leaves the deadline one nanosecond in the past in the field for writing (and no deadline in the one for
reading), a deadline of the zero time makes both of them now. -/
theorem C117_deadline_now_violated (s : Sock) (n1 n2 n3 n4 : Int) :
    (s.setDeadline n1 n2 n3 n4 (some 0)).writeDeadline = n1 - 1 ∧ (s.setDeadline n1 n2 n3 n4 (some 0)).readDeadline = 0 ∧
    (s.setDeadline n1 n2 n3 n4 none).writeDeadline = n1 ∧ (s.setDeadline n1 n2 n3 n4 none).readDeadline = n3 := by
  refine ⟨?_, ?_, ?_, ?_⟩ <;>
    simp only [Sock.setDeadline, untilTo, Sock.setTimeout, Sock.setReadTimeout, Sock.setWriteTimeout, Sock.setReadTimeoutI, Sock.setWriteTimeoutI,
      if_true, if_pos (show (-1 : Int) < 0 by decide), if_neg (show ¬ (0 : Int) < 0 by decide), Int.add_zero] <;>
    (repeat' split) <;> rfl

end Memar.Net.Socket
