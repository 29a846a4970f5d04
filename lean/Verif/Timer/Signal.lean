import Verif.Timer.TimingSpec

/-!
# Model of the timers that signal on a channel, and of setting timers up again

The channel of a `Sync` timer has room for one signal (timer/timer-sync.go:49).
-/

namespace Memar.Timer.Queue
open Memar.Timer

/-- timer/timer-async.go:64-76 `Reinit` of an initialised timer; the callback is replaced, which is not kept here. -/
def reinitTimer (tg : Tg) (t : Nat) : Out (Tg × Option Err) :=
  (stop tg t).bind fun (tg1, e) =>
    match e with
    | some e => .ok (tg1, some e)
    | none => .ok (tg1.setTiming t false, none)

/-- timer/timer-async.go:21-27 `NewAsync` and timer/timer-sync.go:27-33 `NewSync` (whose callback is never nil) with the
new timer `t`. -/
def newTimer (hasCallback : Bool) (tg : Tg) (t : Nat) (d now : Int) : Out (Tg × Option Err) :=
  if hasCallback then start tg t d now else .ok (tg, some .notInit)

/-- timer/timer-sync.go:14-22 `After` with the new timer `t`. -/
def after (tg : Tg) (t : Nat) (d now : Int) : Out Tg :=
  (start tg t d now).bind fun (tg1, e) =>
    match e with
    | some _ => .panic
    | none => .ok tg1

/-- timer/timer-sync.go:36-39: one `Sync` timer of a queue, its channel holding a signal or not, closed or not. -/
structure SyncTimer where
  tg : Tg
  signal : Bool
  closed : Bool

/-- timer/timer-sync.go:68-73 `TimerHandler`: a send that never blocks; on a closed channel it panics. -/
def SyncTimer.handler (s : SyncTimer) : Out SyncTimer :=
  if s.closed then .panic else .ok { s with signal := true }

/-- The handler called once for each firing. -/
def SyncTimer.handlers : List (Nat × Int) → SyncTimer → Out SyncTimer
  | [], s => .ok s
  | _ :: l, s => s.handler.bind (SyncTimer.handlers l)

/-- A call on the queue; the handler of the timer `t` is called as often as the timer fired. -/
def SyncTimer.call (t : Nat) (s : SyncTimer) (c : Call) : Out SyncTimer :=
  (c.run s.tg).bind fun (tg1, _) =>
    SyncTimer.handlers ((tg1.fired.drop s.tg.fired.length).filter fun f => f.1 = t) { s with tg := tg1 }

/-- A receive that does not wait: whether a signal was there. -/
def SyncTimer.receive (s : SyncTimer) : SyncTimer × Bool :=
  if s.signal then ({ s with signal := false }, true) else (s, false)

/-- timer/timer-sync.go:55-62 `Deinit`; closing a closed channel panics. -/
def SyncTimer.deinit (t : Nat) (s : SyncTimer) : Out (SyncTimer × Option Err) :=
  (stop s.tg t).bind fun (tg1, e) =>
    match e with
    | some e => .ok ({ s with tg := tg1 }, some e)
    | none => if s.closed then .panic else .ok ({ s with tg := tg1, closed := true }, none)

/-- What a program does with the timer: `none` is a receive. -/
def SyncTimer.run (t : Nat) : List (Option Call) → SyncTimer × Nat → Out (SyncTimer × Nat)
  | [], r => .ok r
  | some c :: ops, (s, n) => (s.call t c).bind fun s1 => SyncTimer.run t ops (s1, n)
  | none :: ops, (s, n) =>
    let (s1, got) := s.receive
    SyncTimer.run t ops (s1, if got then n + 1 else n)

/-- A new `Sync` timer on an empty queue. -/
def SyncTimer.init : SyncTimer := ⟨Tg.init, false, false⟩

end Memar.Timer.Queue
