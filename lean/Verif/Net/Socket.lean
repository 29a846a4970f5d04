import Verif.Base

/-!
# Model of the network socket: net/socket.go, net/socket-timing.go, net/socket-codec.go, net/connection-status.go and the
standard-library face of it, net/std/net.go

Times and durations are integers of nanoseconds; for 64 bits see `Verif.Net.SocketBits`. The clock is an input: each call
of `monotonic.Now()` is given the time it reads. The timer is the sequential behaviour of `timer.Async`
(timer/timer-async.go:53-61, timer/timer-async.go:93-124, timer/timer-async.go:131-168, timer/timer-async.go:175-261): calls are made by one goroutine, and the timer is not being run
at the same time. `Check` never fails (net/socket.go:56-59) and is left out.
-/

namespace Memar.Net.Socket

/-- The values of `protocol.NetworkStatus` that the code names. -/
inductive NStatus where
  | unset
  | timeoutRead
  | timeoutWrite
  | receivedCompletely
  | other (n : Nat)
  deriving DecidableEq, Repr

/-- A Go channel: `none` is the nil channel; otherwise its capacity and the values waiting in it. Receivers that wait are
left out: a send succeeds at once only when there is room. -/
abbrev Chan := Option (Nat × List NStatus)

/-- `ch <- v`: `none` when the sender blocks. -/
def send (c : Chan) (v : NStatus) : Option Chan :=
  match c with
  | none => none
  | some (cap, q) => if q.length < cap then some (some (cap, q ++ [v])) else none

/-- The sequential part of `timer.Async` (timer/timer-async.go:32-48): whether a callback was given, whether it waits in a
timing, and the moment it is due. -/
structure Timer where
  callback : Bool
  started : Bool
  active : Bool
  whn : Int
  deriving DecidableEq, Repr

/-- The zero timer. -/
def Timer.zero : Timer := ⟨false, false, false, 0⟩

/-- timer/timer-async.go:53-61: `Init`. -/
def Timer.init (t : Timer) : Timer := if t.callback then t else { t with callback := true }

/-- timer/timer-async.go:93-124: `Start`; the result says whether it succeeded. A timer is started at most once. -/
def Timer.start (t : Timer) (now d : Int) : Timer × Bool :=
  if !t.callback then (t, false)
  else if d < 1 then (t, false)
  else if t.started then (t, false)
  else ({ t with started := true, active := true, whn := now + d }, true)

/-- timer/timer-async.go:131-168: `Stop`. -/
def Timer.stop (t : Timer) : Timer := { t with active := false }

/-- timer/timer-async.go:175-261: `Reset`; the result says whether it succeeded. -/
def Timer.reset (t : Timer) (now d : Int) : Timer × Bool :=
  if d < 1 then (t, false)
  else if !t.callback then (t, false)
  else ({ t with started := true, active := true, whn := now + d }, true)

/-- `Socket` (net/socket.go:13-25) with its status (net/connection-status.go:15-18); the buffer is left out. -/
structure Sock where
  timer : Timer
  readDeadline : Int
  writeDeadline : Int
  status : NStatus
  state : Chan
  deriving DecidableEq, Repr

/-- The zero socket: the channel of states is nil, and no code makes it. -/
def Sock.zero : Sock := ⟨.zero, 0, 0, .unset, none⟩

/-- net/connection-status.go:23-29: `SetStatus`: the status is stored, then the send may block for ever (`none` in the
second component). -/
def Sock.setStatus (s : Sock) (ns : NStatus) : Sock × Option Sock :=
  let s1 := { s with status := ns }
  (s1, (send s.state ns).map fun (c : Chan) => { s1 with state := c })

/-- net/socket.go:28-31 and net/socket-timing.go:11-15: `Init`. -/
def Sock.init (s : Sock) (now timeout : Int) : Sock × Bool :=
  let r := s.timer.init.start now timeout
  ({ s with timer := r.1 }, r.2)

/-- net/socket.go:32-35 and net/socket-timing.go:16-19: `Reinit`. -/
def Sock.reinit (s : Sock) (now timeout : Int) : Sock × Bool :=
  let r := s.timer.reset now timeout
  ({ s with timer := r.1 }, r.2)

/-- net/socket-timing.go:66-84: `setReadTimeout`; `now1` is read for the deadline, `now2` by the timer. -/
def Sock.setReadTimeoutI (s : Sock) (now1 now2 d : Int) : Sock :=
  if d < 0 then
    let s1 := { s with readDeadline := 0 }
    if s.writeDeadline = 0 then { s1 with timer := s1.timer.stop } else s1
  else
    let s1 := { s with readDeadline := now1 + d }
    if now1 + d < s1.timer.whn then { s1 with timer := (s1.timer.reset now2 d).1 } else s1

/-- net/socket-timing.go:85-102: `setWriteTimeout`; the branch for "no timeout" does not return. -/
def Sock.setWriteTimeoutI (s : Sock) (now1 now2 d : Int) : Sock :=
  let s0 :=
    if d < 0 then
      let s1 := { s with writeDeadline := 0 }
      if s.readDeadline = 0 then { s1 with timer := s1.timer.stop } else s1
    else s
  let s2 := { s0 with writeDeadline := now1 + d }
  if now1 + d < s2.timer.whn then { s2 with timer := (s2.timer.reset now2 d).1 } else s2

/-- net/socket-timing.go:47-55: `SetReadTimeout` calls the function for writing. -/
def Sock.setReadTimeout (s : Sock) (now1 now2 d : Int) : Sock := s.setWriteTimeoutI now1 now2 d

/-- net/socket-timing.go:56-64: `SetWriteTimeout` calls the function for reading. -/
def Sock.setWriteTimeout (s : Sock) (now1 now2 d : Int) : Sock := s.setReadTimeoutI now1 now2 d

/-- net/socket-timing.go:39-46: `SetTimeout`. -/
def Sock.setTimeout (s : Sock) (n1 n2 n3 n4 d : Int) : Sock := (s.setReadTimeout n1 n2 d).setWriteTimeout n3 n4 d

/-- net/socket-timing.go:26-36: `TimerHandler`: the status it announces. -/
def Sock.handlerStatus (s : Sock) : Option NStatus :=
  if s.readDeadline ≤ s.timer.whn then some .timeoutRead
  else if s.writeDeadline ≤ s.timer.whn then some .timeoutWrite
  else none

/-- net/socket-timing.go:26-36: `TimerHandler`; the second component is `none` when it blocks for ever. -/
def Sock.timerHandler (s : Sock) : Sock × Option Sock :=
  match s.handlerStatus with
  | none => (s, some s)
  | some ns => s.setStatus ns

/-- The timing runs a timer that is due: it leaves the timing and its handler runs
(timer/timing.go:424-457 `runOneTimer`, for a timer without period); it may be started again afterwards. -/
def Sock.fire (s : Sock) (now : Int) : Option (Sock × Option Sock) :=
  if s.timer.active ∧ s.timer.whn ≤ now then some { s with timer := { s.timer with started := false, active := false } }.timerHandler else none

/-- net/std/net.go:87-95: `untilTo`; `none` is the zero time, otherwise the difference to now. -/
def untilTo (t : Option Int) : Int :=
  match t with
  | none => 0
  | some until_ => if until_ = 0 then -1 else until_

/-- net/std/net.go:63-67: `SetDeadline`. -/
def Sock.setDeadline (s : Sock) (n1 n2 n3 n4 : Int) (t : Option Int) : Sock := s.setTimeout n1 n2 n3 n4 (untilTo t)

/-- net/socket-codec.go:65-85: `blockInSelect` over the states received in order; `none` while it waits for more. -/
def Sock.blockInSelect (s : Sock) : List NStatus → Option Sock
  | [] => none
  | .receivedCompletely :: _ => some { s with timer := s.timer.stop }
  | _ :: rest => s.blockInSelect rest

/-- net/socket-codec.go:87-89: `sendPayload`: nothing is sent. -/
def sendPayload (_b : Bytes) : Nat := 0

/-- net/socket-codec.go:42-58 (net/stream-codec.go:42-58): the loop of `Unmarshal`, for `rounds` rounds: the number of bytes sent when it returns,
`none` when it is still running. -/
def unmarshalLoop : Nat → Bytes → Nat → Option Nat
  | 0, _, _ => none
  | rounds + 1, data, n => if data.length > 0 then unmarshalLoop rounds (data.drop (sendPayload data)) (n + sendPayload data) else some n

/-- net/socket-codec.go:18-29 `Marshal` (and, with the same text, net/stream-codec.go:18-29): `full` and `held` are
`Full` and `Marshal` of the buffer; `none` while it waits. -/
def Sock.marshal (s : Sock) (full : Bool) (held : Bytes) (states : List NStatus) : Option (Sock × Bytes) :=
  if full then some (s, held) else (s.blockInSelect states).map fun (s : Sock) => (s, held)

/-- net/socket-codec.go:30-41 `MarshalTo` (net/stream-codec.go:30-41): the buffer appends what it holds. -/
def Sock.marshalTo (s : Sock) (full : Bool) (held data : Bytes) (states : List NStatus) : Option (Sock × Bytes) :=
  if full then some (s, data ++ held) else (s.blockInSelect states).map fun (s : Sock) => (s, data ++ held)

/-- net/std/net.go:17-29 `Read` into `room` bytes: what the reader is given of the buffer. The names `s` and `recv` of
the source, that do not exist, are read as the socket and its buffer. -/
def Sock.stdRead (s : Sock) (full : Bool) (held : Bytes) (room : Nat) (states : List NStatus) : Option (Sock × Bytes) :=
  if full then some (s, held.take room) else (s.blockInSelect states).map fun (s : Sock) => (s, held.take room)

/-- net/std/io.go:14-20 `WriteTo`: `write` is `Write` of the writer, its count and error. -/
def Sock.stdWriteTo {E : Type} (s : Sock) (full : Bool) (held : Bytes) (states : List NStatus) (write : Bytes → Nat × Option E) :
    Option (Sock × Nat × Option E) :=
  (s.marshal full held states).map fun (r : Sock × Bytes) => (r.1, (write r.2).1, (write r.2).2)

/-- net/std/net.go:34-42 `Close`, for a stack of `depth` calls: the call in its last line is of itself. -/
def Sock.stdClose (s : Sock) : Nat → Option Sock
  | 0 => none
  | depth + 1 => s.stdClose depth

end Memar.Net.Socket
