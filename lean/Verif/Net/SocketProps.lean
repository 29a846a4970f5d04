import Verif.Net.Socket

/-!
# Properties of socket timeouts, states and transfer (C116–C118)
-/

namespace Memar.Net.Socket

/-! ## C116: timeouts -/

/-- C263 violated: `SetReadTimeout` sets the time limit of reading and `SetWriteTimeout` that of writing. Here each leaves its
own limit untouched and sets the other one, for every socket, clock and duration. -/
theorem C263_read_write_swapped_violated (s : Sock) (n1 n2 d : Int) :
    ((s.setReadTimeout n1 n2 d).readDeadline = s.readDeadline ∧ (s.setReadTimeout n1 n2 d).writeDeadline = n1 + d) ∧
    ((s.setWriteTimeout n1 n2 d).writeDeadline = s.writeDeadline ∧
      (0 ≤ d → (s.setWriteTimeout n1 n2 d).readDeadline = n1 + d)) := by
  unfold Sock.setReadTimeout Sock.setWriteTimeout Sock.setReadTimeoutI Sock.setWriteTimeoutI
  refine ⟨⟨?_, ?_⟩, ?_, ?_⟩
  · dsimp only; split <;> split <;> (try split) <;> rfl
  · dsimp only; split <;> split <;> (try split) <;> rfl
  · dsimp only; split <;> split <;> rfl
  · intro h; rw [if_neg (by omega)]; dsimp only; split <;> rfl

/-- **C263** (partial: the timer need not follow, see `C263_extended_never_fires_violated`): setting one limit for both
directions stores both limits, each counted from the clock at its call.
Missing: the timer (refuted: `C263_extended_never_fires_violated`, `C263_not_armed_violated`). -/
theorem C263_set_both_partial (s : Sock) (n1 n2 n3 n4 d : Int) (h : 0 ≤ d) :
    (s.setTimeout n1 n2 n3 n4 d).writeDeadline = n1 + d ∧ (s.setTimeout n1 n2 n3 n4 d).readDeadline = n3 + d := by
  unfold Sock.setTimeout
  obtain ⟨⟨_, h2⟩, _, _⟩ := C263_read_write_swapped_violated s n1 n2 d
  obtain ⟨_, h3, h4⟩ := C263_read_write_swapped_violated (s.setReadTimeout n1 n2 d) n3 n4 d
  exact ⟨by rw [h3, h2], h4 h⟩

/-- **C263** (partial: only when the running timer is due later): a new limit earlier than the timer brings the timer forward
to that limit, counted from the clock the timer reads.
Missing: later limits, and sockets whose timer does not run (refuted: `C263_extended_never_fires_violated`, `C263_not_armed_violated`). -/
theorem C263_earlier_partial (s : Sock) (n1 n2 d : Int) (h : 1 ≤ d) (hc : s.timer.callback = true) (hw : n1 + d < s.timer.whn) :
    (s.setReadTimeout n1 n2 d).timer = ⟨true, true, true, n2 + d⟩ ∧
    (s.setWriteTimeout n1 n2 d).timer = ⟨true, true, true, n2 + d⟩ := by
  constructor
  · have e1 : ¬ d < 0 := by omega
    have e2 : ¬ d < 1 := by omega
    simp [Sock.setReadTimeout, Sock.setWriteTimeoutI, e1, hw, Timer.reset, e2, hc]
  · unfold Sock.setWriteTimeout Sock.setReadTimeoutI
    rw [if_neg (by omega)]
    dsimp only
    rw [if_pos hw]
    unfold Timer.reset
    rw [if_neg (by omega)]
    simp [hc]

theorem setTimeout_late (s : Sock) (n1 n2 n3 n4 d : Int) (h : 0 ≤ d) (h1 : s.timer.whn ≤ n1 + d) (h3 : s.timer.whn ≤ n3 + d) :
    s.setTimeout n1 n2 n3 n4 d = { s with writeDeadline := n1 + d, readDeadline := n3 + d } := by
  unfold Sock.setTimeout Sock.setReadTimeout Sock.setWriteTimeout Sock.setReadTimeoutI Sock.setWriteTimeoutI
  rw [if_neg (by omega)]
  dsimp only
  have e1 : ¬ (n1 + d < s.timer.whn) := by omega
  have e3 : ¬ (n3 + d < s.timer.whn) := by omega
  simp only [if_neg (show ¬ d < 0 by omega), if_neg e1, if_neg e3]

/-- C263 violated: after the limits are extended, a peer that stays silent is noticed at the new limit. Here, when both new
limits are later than the timer, the timer stays where it was; when it runs it announces nothing, and it is not started
again, so no time limit is ever announced. -/
theorem C263_extended_never_fires_violated (s : Sock) (n1 n2 n3 n4 d : Int) (h : 0 ≤ d) (ha : s.timer.active = true)
    (h1 : s.timer.whn < n1 + d) (h3 : s.timer.whn < n3 + d) (t : Int) (ht : s.timer.whn ≤ t) :
    ∃ s', (s.setTimeout n1 n2 n3 n4 d).fire t = some (s', some s') ∧ s'.status = s.status ∧ s'.state = s.state ∧
      s'.timer.active = false ∧ ∀ t', s'.fire t' = none := by
  rw [setTimeout_late s n1 n2 n3 n4 d h (by omega) (by omega)]
  refine ⟨{ s with writeDeadline := n1 + d, readDeadline := n3 + d, timer := { s.timer with started := false, active := false } }, ?_, rfl, rfl, rfl, ?_⟩
  · unfold Sock.fire
    rw [if_pos ⟨ha, ht⟩]
    unfold Sock.timerHandler Sock.handlerStatus
    rw [if_neg (by simp only; omega), if_neg (by simp only; omega)]
  · intro t'
    unfold Sock.fire
    rw [if_neg (by simp)]

/-- C263 violated: setting a time limit arms the timer. Here, on a socket whose timer was never started, limits in the future
never do. -/
theorem C263_not_armed_violated (s : Sock) (n1 n2 n3 n4 d : Int) (hs : s.timer = .zero ∨ s.timer = Timer.zero.init)
    (h : 0 ≤ d) (h1 : 0 ≤ n1) (h3 : 0 ≤ n3) :
    (s.setTimeout n1 n2 n3 n4 d).timer = s.timer ∧ ∀ t, (s.setTimeout n1 n2 n3 n4 d).fire t = none := by
  have hw : s.timer.whn = 0 ∧ s.timer.active = false := by rcases hs with e | e <;> rw [e] <;> exact ⟨rfl, rfl⟩
  rw [setTimeout_late s n1 n2 n3 n4 d h (by omega) (by omega)]
  refine ⟨rfl, fun t => ?_⟩
  unfold Sock.fire
  rw [if_neg (by simp [hw.2])]

/-- C263 violated: a negative duration removes the limit. Here `SetReadTimeout` of a negative duration leaves a limit in the
past, and `SetWriteTimeout` of one leaves a zero that the timer takes for an expired limit: whenever the timer runs it
announces an expired read. -/
theorem C263_no_timeout_violated (s : Sock) (n1 n2 d : Int) (h : d < 0) :
    (s.setReadTimeout n1 n2 d).writeDeadline = n1 + d ∧ n1 + d < n1 ∧
    (s.setWriteTimeout n1 n2 d).readDeadline = 0 ∧
    (0 ≤ s.timer.whn → (s.setWriteTimeout n1 n2 d).handlerStatus = some .timeoutRead) := by
  refine ⟨(C263_read_write_swapped_violated s n1 n2 d).1.2, by omega, ?_, ?_⟩
  · unfold Sock.setWriteTimeout Sock.setReadTimeoutI; rw [if_pos h]; dsimp only; split <;> rfl
  · intro hw
    unfold Sock.setWriteTimeout Sock.setReadTimeoutI
    rw [if_pos h]
    dsimp only
    split <;> (unfold Sock.handlerStatus; rw [if_pos]; exact hw)

/-- C263 violated: an expired write is announced as an expired write. Here, when only a limit for writing was ever stored, it is
announced as an expired read, for every moment. -/
theorem C263_write_named_read_violated (s : Sock) (hr : s.readDeadline = 0) (hw : 0 ≤ s.timer.whn) :
    s.handlerStatus = some .timeoutRead := by
  unfold Sock.handlerStatus
  rw [if_pos (by omega)]

/-- **C263** (partial: only when both limits were stored): the timer announces the read when the read has expired, and the
write when only the write has.
Missing: limits set for one direction (refuted: `C263_read_write_swapped_violated`, `C263_write_named_read_violated`). -/
theorem C263_announced_partial (s : Sock) :
    (s.handlerStatus = some .timeoutRead ↔ s.readDeadline ≤ s.timer.whn) ∧
    (s.handlerStatus = some .timeoutWrite ↔ s.timer.whn < s.readDeadline ∧ s.writeDeadline ≤ s.timer.whn) ∧
    (s.handlerStatus = none ↔ s.timer.whn < s.readDeadline ∧ s.timer.whn < s.writeDeadline) := by
  unfold Sock.handlerStatus
  by_cases h1 : s.readDeadline ≤ s.timer.whn
  · rw [if_pos h1]
    refine ⟨by simp [h1], ?_, ?_⟩ <;> simp <;> omega
  · rw [if_neg h1]
    by_cases h2 : s.writeDeadline ≤ s.timer.whn
    · rw [if_pos h2]; refine ⟨?_, ?_, ?_⟩ <;> simp <;> omega
    · rw [if_neg h2]; refine ⟨?_, ?_, ?_⟩ <;> simp <;> omega

/-- A socket with a timer due at 100. -/
def exSock : Sock := ⟨⟨true, true, true, 100⟩, 0, 0, .unset, some (1, [])⟩

example : (Sock.zero.init 10 90).1.timer = ⟨true, true, true, 100⟩ := by decide
example : ((exSock.setTimeout 20 20 20 20 500).fire 100).map (fun r => (r.1.status, r.1.timer.active)) = some (.unset, false) := by
  decide
example : ((exSock.setTimeout 20 20 21 21 30).fire 60).map (fun r => (r.1.status, r.1.timer.whn)) = some (.timeoutWrite, 50) := by
  decide
example : ((exSock.setReadTimeout 20 20 30).fire 60).map (fun r => r.1.status) = some .timeoutRead := by decide

/-! ## C117: states, and the deadlines of the standard library -/

/-- **C117** (partial: only for a channel with room): a new status is stored and delivered behind the ones waiting, and the
caller is not blocked.
Missing: a channel that is full (refuted: `C117_status_blocks_violated`). -/
theorem C117_status_delivered_partial (s : Sock) (ns : NStatus) (cap : Nat) (q : List NStatus) (h : s.state = some (cap, q))
    (hq : q.length < cap) :
    (s.setStatus ns).2 = some { s with status := ns, state := some (cap, q ++ [ns]) } := by
  unfold Sock.setStatus
  simp [h, send, hq]

/-- C117 violated: announcing a status does not block the caller. Here it blocks for ever when the channel is full, and always
on a socket made by `Init`, whose channel nothing makes: the status is stored and the goroutine that runs the timers stops. -/
theorem C117_status_blocks_violated (s : Sock) (ns : NStatus) :
    (∀ cap q, s.state = some (cap, q) → cap ≤ q.length → (s.setStatus ns).1.status = ns ∧ (s.setStatus ns).2 = none) ∧
    (∀ now d t r, ((Sock.zero.init now d).1.fire t) = some r → 1 ≤ d → 0 ≤ now → r.1.status = .timeoutRead ∧ r.2 = none) := by
  constructor
  · intro cap q h hq
    unfold Sock.setStatus
    refine ⟨rfl, ?_⟩
    have : ¬ q.length < cap := by omega
    simp [h, send, this]
  · intro now d t r hr hd hn
    have e : (Sock.zero.init now d).1 = { Sock.zero with timer := ⟨true, true, true, now + d⟩ } := by
      have : ¬ d < 1 := by omega
      simp [Sock.init, Sock.zero, Timer.init, Timer.zero, Timer.start, this]
    rw [e] at hr
    unfold Sock.fire at hr
    split at hr
    · simp only [Option.some.injEq] at hr
      subst hr
      unfold Sock.timerHandler Sock.handlerStatus
      have h0 : (0 : Int) ≤ now + d := by omega
      simp [Sock.zero, h0, Sock.setStatus, send]
    · cases hr

/-- C117 violated: in the standard library's terms, the zero time removes the deadline and a time in the past expires at once.
Here the zero time sets the deadline to this very moment, and a time in the past is a negative duration, which is taken for
"no time limit". -/
theorem C117_std_deadline_violated (s : Sock) (n1 n2 n3 n4 past : Int) (hp : past ≤ 0) :
    ((s.setDeadline n1 n2 n3 n4 none).readDeadline = n3 ∧ (s.setDeadline n1 n2 n3 n4 none).writeDeadline = n1) ∧
    (s.setDeadline n1 n2 n3 n4 (some past)).readDeadline = 0 := by
  constructor
  · have := C263_set_both_partial s n1 n2 n3 n4 0 (by omega)
    unfold Sock.setDeadline untilTo
    simp only [Int.add_zero] at this
    exact ⟨this.2, this.1⟩
  · have hu : untilTo (some past) < 0 := by unfold untilTo; dsimp only; split <;> omega
    unfold Sock.setDeadline Sock.setTimeout
    exact (C263_no_timeout_violated (s.setReadTimeout n1 n2 (untilTo (some past))) n3 n4 _ hu).2.2.1

/-- **C117** (partial: only a deadline in the future): a deadline `until` nanoseconds ahead limits both directions to it.
Missing: the zero deadline and past ones (refuted: `C117_std_deadline_violated`). -/
theorem C117_std_deadline_partial (s : Sock) (n1 n2 n3 n4 ahead : Int) (h : 0 < ahead) :
    (s.setDeadline n1 n2 n3 n4 (some ahead)).writeDeadline = n1 + ahead ∧
    (s.setDeadline n1 n2 n3 n4 (some ahead)).readDeadline = n3 + ahead := by
  have hu : untilTo (some ahead) = ahead := by unfold untilTo; dsimp only; rw [if_neg (by omega)]
  unfold Sock.setDeadline
  rw [hu]
  exact C263_set_both_partial s n1 n2 n3 n4 ahead (by omega)

example : (exSock.setStatus .timeoutRead).2.map (·.state) = some (some (1, [.timeoutRead])) := by decide
example : (exSock.setDeadline 20 20 20 20 (some (-5))).readDeadline = 0 := by decide
example : ((Sock.zero.init 10 90).1.fire 100).map (·.2) = some none := by decide

/-! ## C118: waiting for a message, and sending -/

/-- **C118**: waiting for a message ends exactly at the state that says it was received completely; the timer is stopped. -/
theorem C118_wait_complete (s : Sock) (states : List NStatus) :
    s.blockInSelect states = (if NStatus.receivedCompletely ∈ states then some { s with timer := { s.timer with active := false } } else none) := by
  induction states with
  | nil => simp [Sock.blockInSelect]
  | cons x t ih =>
    cases x <;> simp only [Sock.blockInSelect, List.mem_cons, ih, reduceCtorEq, false_or, true_or, if_true, Timer.stop]

/-- C221 violated: a reader waits no longer than its time limit. Here the states that say a limit has expired are ignored: as long
as the message is not complete the reader waits, whatever else is announced. -/
theorem C221_timeout_ignored_violated (s : Sock) (states : List NStatus) (h : NStatus.receivedCompletely ∉ states) (more : List NStatus) :
    s.blockInSelect states = none ∧ s.blockInSelect (states ++ .timeoutRead :: more) = s.blockInSelect more := by
  refine ⟨by rw [C118_wait_complete, if_neg h], ?_⟩
  rw [C118_wait_complete, C118_wait_complete]
  simp [h]

/-- C221 violated: sending returns once the bytes are sent. Here it never returns for any data but the empty one: nothing is
sent and the loop goes on for ever. -/
theorem C221_send_never_returns_violated (rounds : Nat) (data : Bytes) (n : Nat) (h : data ≠ []) :
    unmarshalLoop rounds data n = none := by
  induction rounds generalizing n with
  | zero => rfl
  | succ r ih =>
    have : data.length > 0 := List.length_pos_iff.2 h
    simp [unmarshalLoop, this, sendPayload, ih]

/-- **C221** (partial: only for no data at all): sending nothing returns at once, with nothing sent.
Missing: sending any data (refuted: `C221_send_never_returns_violated`). -/
theorem C221_send_nothing_partial (rounds : Nat) : unmarshalLoop (rounds + 1) [] 0 = some 0 := rfl

example : exSock.blockInSelect [.timeoutRead, .other 3, .receivedCompletely] = some { exSock with timer := ⟨true, true, false, 100⟩ } := by
  decide

/-! ## C118: receiving -/

/-- **C118**: receiving answers what the buffer holds, `MarshalTo` behind the bytes given, `Read` no more than there is
room for, `WriteTo` whatever the writer answers to it. It waits exactly while the buffer is not full and no state says
the message is complete. -/
theorem C118_receive {E : Type} (s : Sock) (full : Bool) (held data : Bytes) (room : Nat) (states : List NStatus)
    (write : Bytes → Nat × Option E) :
    let ready := full = true ∨ NStatus.receivedCompletely ∈ states
    (¬ ready → s.marshal full held states = none ∧ s.marshalTo full held data states = none ∧
      s.stdRead full held room states = none ∧ s.stdWriteTo full held states write = none) ∧
    (ready → ∃ s', s.marshal full held states = some (s', held) ∧ s.marshalTo full held data states = some (s', data ++ held) ∧
      s.stdRead full held room states = some (s', held.take room) ∧
      s.stdWriteTo full held states write = some (s', write held) ∧
      s'.status = s.status ∧ s'.readDeadline = s.readDeadline ∧ s'.writeDeadline = s.writeDeadline ∧
      (full = true → s' = s) ∧ (full = false → s'.timer.active = false)) := by
  intro ready
  refine ⟨fun h => ?_, fun h => ?_⟩
  · have h1 : full = false := by simpa using fun hf : full = true => h (Or.inl hf)
    have h2 : NStatus.receivedCompletely ∉ states := fun hf => h (Or.inr hf)
    simp [Sock.marshal, Sock.marshalTo, Sock.stdRead, Sock.stdWriteTo, h1, C118_wait_complete, h2]
  · cases full with
    | true => exact ⟨s, by simp [Sock.marshal, Sock.marshalTo, Sock.stdRead, Sock.stdWriteTo]⟩
    | false =>
      have h2 : NStatus.receivedCompletely ∈ states := by simpa [ready] using h
      refine ⟨{ s with timer := { s.timer with active := false } }, ?_⟩
      simp [Sock.marshal, Sock.marshalTo, Sock.stdRead, Sock.stdWriteTo, C118_wait_complete, h2]

example : ∃ s', exSock.stdRead false [1#8, 2#8, 3#8] 2 [.other 1, .receivedCompletely] = some (s', [1#8, 2#8]) := by
  obtain ⟨s', -, -, h, -⟩ := (C118_receive (E := Unit) exSock false [1#8, 2#8, 3#8] [] 2 [.other 1, .receivedCompletely]
    (fun b => (b.length, none))).2 (Or.inr (by decide))
  exact ⟨s', h⟩

/-- C221 violated: closing a socket through the interface of the standard library ends. Here it calls itself, and does not
end however deep the stack is. -/
theorem C221_close_violated (s : Sock) (depth : Nat) : s.stdClose depth = none := by
  induction depth with
  | zero => rfl
  | succ d ih => exact ih

example := C263_set_both_partial exSock 20 21 22 23 500 (by decide)
example := C263_earlier_partial exSock 20 21 30 (by decide) rfl (by decide)
example := C263_extended_never_fires_violated exSock 20 21 22 23 500 (by decide) rfl (by decide) (by decide) 100 (by decide)
example := C263_not_armed_violated Sock.zero 20 21 22 23 500 (.inl rfl) (by decide) (by decide) (by decide)
example := C263_no_timeout_violated exSock 20 21 (-1) (by decide)
example := C263_write_named_read_violated exSock rfl (by decide)
example := C117_status_delivered_partial exSock .timeoutRead 1 [] rfl (by decide)
example := C117_std_deadline_violated exSock 20 21 22 23 (-5) (by decide)
example := C221_timeout_ignored_violated exSock [.other 3, .timeoutRead] (by decide) [.receivedCompletely]
example := C221_send_never_returns_violated 5 [1, 2] 0 (by decide)

end Memar.Net.Socket
