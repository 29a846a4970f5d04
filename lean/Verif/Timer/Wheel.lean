import Verif.Base

/-!
# Model of `timer/timing-wheel/timing-wheel.go`

A timer is a number; its period is given by a function.  A panic is `none`.  `int` and the
durations are mathematical integers.  A callback does not touch the wheel; that it ran is recorded
(callbacks that add timers are in `Verif/Timer/WheelCallback.lean`).
`Start`'s select loop is one `tick` per signal; stopping is modelled in `Verif/Timer/WheelStop.lean`.
-/

namespace Memar.Timer.Wheel

/-- timer/timing-wheel/timing-wheel.go:11-18 -/
structure Wheel where
  wheelSize : Int
  wheel : List (List Nat)
  interval : Int
  pos : Nat
  fired : List Nat
deriving Repr

/-- timer/timing-wheel/timing-wheel.go:21-27: a negative size panics in `make`. -/
def init (interval wheelSize : Int) : Option Wheel :=
  if wheelSize < 0 then none
  else some ⟨wheelSize, List.replicate wheelSize.toNat [], interval, 0, []⟩

/-- timer/timing-wheel/timing-wheel.go:99-101: Go division truncates, and panics for zero. -/
def addedPosition (w : Wheel) (period : Int) : Option Int :=
  if w.interval = 0 then none else some (period.tdiv w.interval + w.pos)

/-- `tw.wheel[p] = append(tw.wheel[p], t)` -/
def put (w : Wheel) (p : Int) (t : Nat) : Option Wheel :=
  if p < 0 then none
  else
    match w.wheel[p.toNat]? with
    | none => none
    | some l => some { w with wheel := w.wheel.set p.toNat (l ++ [t]) }

/-- timer/timing-wheel/timing-wheel.go:92-97 -/
def checkAndAddAgain (per : Nat → Int) (w : Wheel) (t : Nat) : Option Wheel :=
  if per t > 0 then
    match addedPosition w (per t) with
    | none => none
    | some p => put w p t
  else some w

/-- timer/timing-wheel/timing-wheel.go:29-41 -/
def addTimer (per : Nat → Int) (w : Wheel) (t : Nat) : Option Wheel :=
  match addedPosition w (per t) with
  | none => none
  | some p =>
    if p > w.wheelSize then none
    else if p = w.pos then checkAndAddAgain per { w with fired := w.fired ++ [t] } t
    else put w p t

/-- timer/timing-wheel/timing-wheel.go:83-90 -/
def incrementTickPosition (w : Wheel) : Wheel :=
  if (w.wheel.length : Int) - 1 = w.pos then { w with pos := 0 } else { w with pos := w.pos + 1 }

/-- timer/timing-wheel/timing-wheel.go:54-58 -/
def runSlot (per : Nat → Int) : List Nat → Wheel → Option Wheel
  | [], w => some w
  | t :: ts, w =>
    match checkAndAddAgain per { w with fired := w.fired ++ [t] } t with
    | none => none
    | some w' => runSlot per ts w'

/-- timer/timing-wheel/timing-wheel.go:50-58: one tick.  The emptied slot shares its array with
the timers being run; an append to it during the loop only overwrites entries already run (`C291_silent`), so
the list of timers to run is a copy here. -/
def tick (per : Nat → Int) (w : Wheel) : Option Wheel :=
  match w.wheel[w.pos]? with
  | none => none
  | some ts =>
    runSlot per ts { incrementTickPosition w with wheel := w.wheel.set w.pos [] }

/-- `n` ticks. -/
def ticks (per : Nat → Int) : Nat → Wheel → Option Wheel
  | 0, w => some w
  | n + 1, w =>
    match tick per w with
    | none => none
    | some w' => ticks per n w'

end Memar.Timer.Wheel
