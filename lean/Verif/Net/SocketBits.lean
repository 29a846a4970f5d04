import Verif.Net.SocketProps
import Verif.Timer.When

/-!
# The timing of a network socket in 64 bits, C288

`Verif.Net.Socket` has times without bounds. Here the moments and durations are Go's `int64`: bit vectors read as two's complement. Adding wraps
(time/monotonic/time.go `Add`); only the timer cuts a moment that wrapped to the latest one (timer/util.go:14-27).
-/

namespace Memar.Net.Socket
open Memar

/-- The fields of `timer.Async` (timer/timer-async.go:32-48) as in `Timer`, with the moment in 64 bits. -/
structure Timer64 where
  callback : Bool
  started : Bool
  active : Bool
  whn : U64
  deriving DecidableEq, Repr

/-- timer/timer-async.go:53-61: `Init`. -/
def Timer64.init (t : Timer64) : Timer64 := if t.callback then t else { t with callback := true }

/-- timer/timer-async.go:93-124: `Start`; the result says whether it succeeded. -/
def Timer64.start (t : Timer64) (now d : U64) : Timer64 × Bool :=
  if !t.callback then (t, false)
  else if d.slt 1#64 then (t, false)
  else if t.started then (t, false)
  else ({ t with started := true, active := true, whn := Timer.when now d }, true)

/-- timer/timer-async.go:131-168: `Stop`. -/
def Timer64.stop (t : Timer64) : Timer64 := { t with active := false }

/-- timer/timer-async.go:175-261: `Reset`; the result says whether it succeeded. -/
def Timer64.reset (t : Timer64) (now d : U64) : Timer64 × Bool :=
  if d.slt 1#64 then (t, false)
  else if !t.callback then (t, false)
  else ({ t with started := true, active := true, whn := Timer.when now d }, true)

/-- `Socket` (net/socket.go:13-25) as in `Sock`, with the moments in 64 bits. -/
structure Sock64 where
  timer : Timer64
  readDeadline : U64
  writeDeadline : U64
  status : NStatus
  state : Chan
  deriving DecidableEq, Repr

/-- net/socket.go:28-31 and net/socket-timing.go:11-15: `Init`. -/
def Sock64.init (s : Sock64) (now timeout : U64) : Sock64 := { s with timer := (s.timer.init.start now timeout).1 }

/-- net/socket.go:32-35 and net/socket-timing.go:16-19: `Reinit`. -/
def Sock64.reinit (s : Sock64) (now timeout : U64) : Sock64 := { s with timer := (s.timer.reset now timeout).1 }

/-- net/socket-timing.go:66-84: `setReadTimeout`. -/
def Sock64.setReadTimeoutI (s : Sock64) (now1 now2 d : U64) : Sock64 :=
  if d.slt 0#64 then
    let s1 := { s with readDeadline := 0#64 }
    if s.writeDeadline = 0#64 then { s1 with timer := s1.timer.stop } else s1
  else
    let s1 := { s with readDeadline := now1 + d }
    if (now1 + d).slt s1.timer.whn then { s1 with timer := (s1.timer.reset now2 d).1 } else s1

/-- net/socket-timing.go:85-102: `setWriteTimeout`; the branch for "no timeout" does not return. -/
def Sock64.setWriteTimeoutI (s : Sock64) (now1 now2 d : U64) : Sock64 :=
  let s0 :=
    if d.slt 0#64 then
      let s1 := { s with writeDeadline := 0#64 }
      if s.readDeadline = 0#64 then { s1 with timer := s1.timer.stop } else s1
    else s
  let s2 := { s0 with writeDeadline := now1 + d }
  if (now1 + d).slt s2.timer.whn then { s2 with timer := (s2.timer.reset now2 d).1 } else s2

/-- net/socket-timing.go:47-55: `SetReadTimeout` calls the function for writing. -/
def Sock64.setReadTimeout (s : Sock64) (now1 now2 d : U64) : Sock64 := s.setWriteTimeoutI now1 now2 d

/-- net/socket-timing.go:56-64: `SetWriteTimeout` calls the function for reading. -/
def Sock64.setWriteTimeout (s : Sock64) (now1 now2 d : U64) : Sock64 := s.setReadTimeoutI now1 now2 d

/-- net/socket-timing.go:39-46: `SetTimeout`. -/
def Sock64.setTimeout (s : Sock64) (n1 n2 n3 n4 d : U64) : Sock64 := (s.setReadTimeout n1 n2 d).setWriteTimeout n3 n4 d

/-- net/socket-timing.go:26-36: `TimerHandler`: the status it announces. -/
def Sock64.handlerStatus (s : Sock64) : Option NStatus :=
  if s.readDeadline.sle s.timer.whn then some .timeoutRead
  else if s.writeDeadline.sle s.timer.whn then some .timeoutWrite
  else none

/-- The timing runs a timer that is due at `now`, as `Sock.fire`: what is announced; `none` when the timer is not due. -/
def Sock64.fire (s : Sock64) (now : U64) : Option (Sock64 × Option NStatus) :=
  if s.timer.active ∧ s.timer.whn.sle now then
    some ({ s with timer := { s.timer with started := false, active := false } }, s.handlerStatus)
  else none

/-- One call of a user of the socket, with the clock readings it makes. -/
inductive Call64 where
  | init (now d : U64)
  | reinit (now d : U64)
  | readTimeout (now1 now2 d : U64)
  | writeTimeout (now1 now2 d : U64)
  | timeout (n1 n2 n3 n4 d : U64)

/-- The socket after the call, in 64 bits. -/
def Sock64.call (s : Sock64) : Call64 → Sock64
  | .init now d => s.init now d
  | .reinit now d => s.reinit now d
  | .readTimeout a b d => s.setReadTimeout a b d
  | .writeTimeout a b d => s.setWriteTimeout a b d
  | .timeout a b c e d => s.setTimeout a b c e d

/-- The same call on times without bounds. -/
def Sock.call (s : Sock) : Call64 → Sock
  | .init now d => (s.init now.toInt d.toInt).1
  | .reinit now d => (s.reinit now.toInt d.toInt).1
  | .readTimeout a b d => s.setReadTimeout a.toInt b.toInt d.toInt
  | .writeTimeout a b d => s.setWriteTimeout a.toInt b.toInt d.toInt
  | .timeout a b c e d => s.setTimeout a.toInt b.toInt c.toInt e.toInt d.toInt

/-- The socket with its moments read as numbers. -/
def Sock64.numbers (s : Sock64) : Sock :=
  ⟨⟨s.timer.callback, s.timer.started, s.timer.active, s.timer.whn.toInt⟩, s.readDeadline.toInt, s.writeDeadline.toInt, s.status, s.state⟩

/-- Specification: the clock is not negative, and the moment that lies `d` behind it can be written. -/
def Spec.fits (now d : U64) : Prop := 0 ≤ now.toInt ∧ now.toInt + d.toInt < 9223372036854775808

/-- Specification: every clock reading of a call fits its duration. -/
def Spec.callFits : Call64 → Prop
  | .init now d => fits now d
  | .reinit now d => fits now d
  | .readTimeout a b d => fits a d ∧ fits b d
  | .writeTimeout a b d => fits a d ∧ fits b d
  | .timeout a b c e d => fits a d ∧ fits b d ∧ fits c d ∧ fits e d

end Memar.Net.Socket
