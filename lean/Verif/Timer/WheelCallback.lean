import Verif.Timer.Wheel

/-!
# A timing wheel whose callbacks add timers

In `Verif/Timer/Wheel.lean` a callback does not touch the wheel. Here it may call `AddTimer`. The slot that a tick empties shares its
array with the timers the tick still has to run (timer/timing-wheel/timing-wheel.go:52-53), so that a timer appended to this slot is
written over one of them. Which timers a callback adds may depend on all that has run. Periods do not change.
-/

namespace Memar.Timer.Wheel

/-- The wheel while it runs the timers of a slot: `live` is what the array `timers` of timer/timing-wheel/timing-wheel.go:52 holds now.
Outside a tick `slot` is `none`. -/
structure Run where
  w : Wheel
  slot : Option Nat
  live : List Nat
deriving Repr

/-- What a call gives: it returns, it panics, or it has not returned after the calls of callbacks inside callbacks it was given. -/
inductive Res
  | ended (r : Run)
  | panic
  | running
deriving Repr

/-- What happens next, once the call has returned. -/
def Res.andThen : Res → (Run → Res) → Res
  | .ended r, f => f r
  | .panic, _ => .panic
  | .running, _ => .running

/-- `tw.wheel[p] = append(tw.wheel[p], t)` (timer/timing-wheel/timing-wheel.go:39 and 95). The slot emptied by the tick keeps its array
(line 53): as long as it holds fewer timers than before, the appended timer is written into the array the tick reads. -/
def putC (r : Run) (p : Int) (t : Nat) : Res :=
  match put r.w p t with
  | none => .panic
  | some w' =>
    .ended { r with w := w', live := if r.slot = some p.toNat then r.live.set (r.w.wheel.getD p.toNat []).length t else r.live }

/-- timer/timing-wheel/timing-wheel.go:92-97 -/
def againC (per : Nat → Int) (r : Run) (t : Nat) : Res :=
  if per t > 0 then
    match addedPosition r.w (per t) with
    | none => .panic
    | some p => putC r p t
  else .ended r

/-- timer/timing-wheel/timing-wheel.go:29-41, with the callback `run`. -/
def addC (per : Nat → Int) (run : Run → Nat → Res) (r : Run) (t : Nat) : Res :=
  match addedPosition r.w (per t) with
  | none => .panic
  | some p =>
    if p > r.w.wheelSize then .panic
    else if p = r.w.pos then (run r t).andThen fun (r' : Run) => againC per r' t
    else putC r p t

/-- Adding timers one after the other (timer/timing-wheel/timing-wheel.go:29-41). -/
def addAll (per : Nat → Int) (run : Run → Nat → Res) : List Nat → Run → Res
  | [], r => .ended r
  | t :: ts, r => (addC per run r t).andThen fun (r' : Run) => addAll per run ts r'

/-- `timer.callback.TimerHandler()` (timer/timing-wheel/timing-wheel.go:35 and 56): that it runs is recorded, and it adds the timers `cb`
says. `depth` bounds callbacks inside callbacks. -/
def handler (cb : List Nat → Nat → List Nat) (per : Nat → Int) : Nat → Run → Nat → Res
  | 0, _, _ => .running
  | depth + 1, r, t =>
    addAll per (handler cb per depth) (cb (r.w.fired ++ [t]) t) { r with w := { r.w with fired := r.w.fired ++ [t] } }

/-- timer/timing-wheel/timing-wheel.go:54-58: the timers number `i` and up, `n` of them. -/
def loopC (cb : List Nat → Nat → List Nat) (per : Nat → Int) (depth : Nat) : Nat → Nat → Run → Res
  | 0, _, r => .ended r
  | n + 1, i, r =>
    match r.live[i]? with
    | none => .panic
    | some t => ((handler cb per depth r t).andThen fun (r' : Run) => againC per r' t).andThen fun (r' : Run) => loopC cb per depth n (i + 1) r'

/-- timer/timing-wheel/timing-wheel.go:50-58: one tick. -/
def tickC (cb : List Nat → Nat → List Nat) (per : Nat → Int) (depth : Nat) (w : Wheel) : Res :=
  match w.wheel[w.pos]? with
  | none => .panic
  | some ts => loopC cb per depth ts.length 0 ⟨{ incrementTickPosition w with wheel := w.wheel.set w.pos [] }, some w.pos, ts⟩

end Memar.Timer.Wheel
