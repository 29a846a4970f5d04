import Verif.Base

/-!
# Starting and stopping a timing wheel

timer/timing-wheel/timing-wheel.go:44-81: the goroutine that runs `Start` and the calls of `Stop`, as steps of one system. What a
tick does to the slots is in `Verif/Timer/Wheel.lean`; here only that it is served counts. The channel of the ticker holds one
signal (timer/timer-sync.go). Simplified: `Stop` is one step, and a second `Start` while one runs is left out (both are
in `Verif/Timer/WheelStopMany.lean`).
-/

namespace Memar.Timer.WheelStop

/-- The field `stop` (timer/timing-wheel/timing-wheel.go:17): a channel, a closed channel or nil. -/
inductive Chan
  | opened
  | closed
  | nil
  deriving DecidableEq, Repr

/-- Where the goroutine of `Start` is. -/
inductive Pc
  /-- `Start` was not called, or has returned -/
  | idle
  /-- before the select -/
  | atSelect
  /-- inside the select: no signal was there -/
  | parked
  /-- running the timers of a slot -/
  | running
  /-- received from `stop` -/
  | received
  /-- `stop` is closed but the field not yet cleared -/
  | closing
  /-- out of the loop -/
  | leaving
  deriving DecidableEq, Repr

/-- The wheel: its channel, its goroutine, whether the ticker is set, whether a signal waits, and the ticks served. -/
structure St where
  stop : Chan
  pc : Pc
  ticker : Bool
  signal : Bool
  served : Nat
  deriving DecidableEq, Repr

/-- timer/timing-wheel/timing-wheel.go:21-27: `Init`. -/
def init : St := ⟨.opened, .idle, false, false, 0⟩

/-- What may happen next. -/
inductive Ev
  /-- `Start` is called -/
  | start
  /-- the ticker gives a signal -/
  | fire
  /-- the goroutine makes its next step -/
  | loop
  /-- `Stop` is called -/
  | stop
  deriving DecidableEq, Repr

/-- What an event gives: it cannot happen now, the program panics, or a new state with the answer of `Stop`. -/
inductive Out
  | blocked
  | panic
  | ok (s : St) (already : Option Bool)
  deriving DecidableEq, Repr

/-- timer/timing-wheel/timing-wheel.go:46-65: the next step of the goroutine. -/
def loopStep (s : St) : Out :=
  match s.pc with
  | .idle => .blocked
  | .atSelect =>
    if s.signal then .ok { s with pc := .running, signal := false, served := s.served + 1 } none else .ok { s with pc := .parked } none
  | .parked => .blocked
  | .running => .ok { s with pc := .atSelect } none
  | .received => .ok { s with stop := .closed, pc := .closing } none
  | .closing => .ok { s with stop := .nil, pc := .leaving } none
  | .leaving => .ok { s with ticker := false, pc := .idle } none

/-- The ticker gives its signal: to the goroutine that waits in the select, or into the channel. A signal for which there is no
room is dropped. -/
def fireStep (s : St) : Out :=
  if s.ticker then
    if s.pc = .parked then .ok { s with pc := .running, served := s.served + 1 } none else .ok { s with signal := true } none
  else .blocked

/-- timer/timing-wheel/timing-wheel.go:69-81: `Stop`. The send succeeds only when the goroutine waits in the select. -/
def stopStep (s : St) : Out :=
  match s.stop with
  | .nil => .ok s (some true)
  | .closed => .panic
  | .opened =>
    if s.pc = .parked then .ok { s with pc := .received, ticker := false } (some false)
    else .ok { s with ticker := false } (some true)

/-- timer/timing-wheel/timing-wheel.go:44-46: `Start` up to its loop. -/
def startStep (s : St) : Out :=
  if s.pc = .idle then .ok { s with ticker := true, pc := .atSelect } none else .blocked

/-- One event. -/
def step (s : St) : Ev → Out
  | .start => startStep s
  | .fire => fireStep s
  | .loop => loopStep s
  | .stop => stopStep s

/-- A schedule, ended by a panic or by an event that cannot happen. -/
def run (s : St) : List Ev → Option St
  | [] => some s
  | e :: t =>
    match step s e with
    | .ok s' _ => run s' t
    | _ => none

end Memar.Timer.WheelStop
