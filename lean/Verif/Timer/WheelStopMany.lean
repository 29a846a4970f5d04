import Verif.Base

/-!
# Many calls of Start and Stop of one timing wheel

timer/timing-wheel/timing-wheel.go:44-81 again, step by step: any number of goroutines in `Start` and any number of calls of `Stop`,
whose reads of the field, selects and calls of the ticker interleave. A tick is only counted; starting and stopping the ticker are
single steps (timer/timer-async.go; a start of a ticker that runs is refused and the refusal ignored).
-/

namespace Memar.Timer.WheelMany

/-- Where a goroutine of `Start` is (timer/timing-wheel/timing-wheel.go:45-66). -/
inductive G
  /-- before the call of `Tick`, line 45 -/
  | begin
  /-- before the select, line 48 -/
  | atSelect
  /-- waiting in the select; whether the field held a channel when it was read -/
  | parked (onStop : Bool)
  /-- running the timers of a slot, lines 50-58 -/
  | running
  /-- received from `stop`, before line 60 -/
  | received
  /-- before line 61 -/
  | closing
  /-- before line 65 -/
  | leaving
  /-- returned -/
  | done
  deriving DecidableEq, Repr

/-- Where a call of `Stop` is (timer/timing-wheel/timing-wheel.go:69-81); its answer, once it is known. -/
inductive K
  /-- before line 70 -/
  | check
  /-- before the select, line 74 -/
  | select
  /-- before line 79 -/
  | halt (already : Bool)
  /-- returned -/
  | done (already : Bool)
  deriving DecidableEq, Repr

/-- The wheel: whether the field `stop` is not nil, whether the one channel it ever held is closed, whether the ticker is set, whether a
signal waits, the ticks served, the goroutines of `Start` and the calls of `Stop`. -/
structure St where
  field : Bool
  closed : Bool
  ticker : Bool
  signal : Bool
  served : Nat
  gs : List G
  ks : List K
  deriving DecidableEq, Repr

/-- timer/timing-wheel/timing-wheel.go:21-27: `Init`. -/
def init : St := ⟨true, false, false, false, 0, [], []⟩

/-- What may happen next. -/
inductive Ev
  /-- a new goroutine calls `Start` -/
  | newStart
  /-- a new call of `Stop` -/
  | newStop
  /-- the ticker gives its signal, to a goroutine that waits or into its channel -/
  | fire (to : Option Nat)
  /-- goroutine `i` makes its next step; of two ready cases of its select it takes the stop channel if `pick` -/
  | go (i : Nat) (pick : Bool)
  /-- call `i` of `Stop` makes its next step; its select sends to a goroutine that waits, or takes the default -/
  | st (i : Nat) (to : Option Nat)
  deriving DecidableEq, Repr

/-- What an event gives: it cannot happen now, the program panics, or a new state. -/
inductive Out
  | blocked
  | panic
  | ok (s : St)
  deriving DecidableEq, Repr

/-- A goroutine that waits for a tick. -/
def G.waits : G → Bool
  | .parked _ => true
  | _ => false

/-- A goroutine that waits for the stop channel. -/
def G.listens : G → Bool
  | .parked true => true
  | _ => false

/-- Closing a channel wakes all that wait for it. -/
def G.woken : G → G
  | .parked true => .received
  | g => g

/-- timer/timing-wheel/timing-wheel.go:45-66: the next step of goroutine `i`. -/
def goStep (s : St) (i : Nat) (pick : Bool) : Out :=
  match s.gs[i]? with
  | none => .blocked
  | some .begin => .ok { s with ticker := true, gs := s.gs.set i .atSelect }
  | some .atSelect =>
    if s.field && s.closed && (pick || !s.signal) then .ok { s with gs := s.gs.set i .received }
    else if s.signal then .ok { s with signal := false, served := s.served + 1, gs := s.gs.set i .running }
    else .ok { s with gs := s.gs.set i (.parked s.field) }
  | some (.parked _) => .blocked
  | some .running => .ok { s with gs := s.gs.set i .atSelect }
  | some .received =>
    if s.field && !s.closed then .ok { s with closed := true, gs := (s.gs.set i .closing).map G.woken } else .panic
  | some .closing => .ok { s with field := false, gs := s.gs.set i .leaving }
  | some .leaving => .ok { s with ticker := false, gs := s.gs.set i .done }
  | some .done => .blocked

/-- timer/timer-sync.go:75-80: the signal of the ticker goes to a goroutine that waits, if there is one, and else into the channel,
where there is room for one. -/
def fireStep (s : St) (to : Option Nat) : Out :=
  if s.ticker then
    match to with
    | some j =>
      match s.gs[j]? with
      | some (.parked _) => .ok { s with served := s.served + 1, gs := s.gs.set j .running }
      | _ => .blocked
    | none => if s.gs.any G.waits then .blocked else .ok { s with signal := true }
  else .blocked

/-- timer/timing-wheel/timing-wheel.go:69-81: the next step of call `i` of `Stop`. A send on a closed channel panics, one on a nil
channel never proceeds. -/
def stStep (s : St) (i : Nat) (to : Option Nat) : Out :=
  match s.ks[i]? with
  | none => .blocked
  | some .check => if s.field then .ok { s with ks := s.ks.set i .select } else .ok { s with ks := s.ks.set i (.done true) }
  | some .select =>
    if s.field then
      if s.closed then .panic
      else match to with
        | some j =>
          match s.gs[j]? with
          | some (.parked true) => .ok { s with gs := s.gs.set j .received, ks := s.ks.set i (.halt false) }
          | _ => .blocked
        | none => if s.gs.any G.listens then .blocked else .ok { s with ks := s.ks.set i (.halt true) }
    else .ok { s with ks := s.ks.set i (.halt true) }
  | some (.halt a) => .ok { s with ticker := false, ks := s.ks.set i (.done a) }
  | some (.done _) => .blocked

/-- One event. -/
def step (s : St) : Ev → Out
  | .newStart => .ok { s with gs := s.gs ++ [.begin] }
  | .newStop => .ok { s with ks := s.ks ++ [.check] }
  | .fire to => fireStep s to
  | .go i pick => goStep s i pick
  | .st i to => stStep s i to

/-- A schedule. -/
def run (s : St) : List Ev → Option St
  | [] => some s
  | e :: t =>
    match step s e with
    | .ok s' => run s' t
    | _ => none

end Memar.Timer.WheelMany
