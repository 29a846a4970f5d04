import Verif.Base

/-!
# Model of `timer/util.go` and of the rescheduling arithmetic of `timer/timing.go`

`monotonic.Time` and `duration.NanoSecond` are `int64`: bit vectors read as two's complement.
The clock reading `monotonic.Now()` is a parameter.
-/

namespace Memar.Timer

/-- timer/const.go:10: `1<<63 - 1`. -/
def maxWhen : U64 := 0x7fffffffffffffff#64

/-- timer/util.go:14-27, with time/monotonic/time.go `Now` (the parameter `now`) and `Add`
(wrapping `int64` addition). -/
def when (now d : U64) : U64 :=
  if d.sle 0#64 then now
  else if (now + d).slt 0#64 then maxWhen
  else now + d

/-- timer/timing.go:429-435: the next deadline of a periodic timer that is run at `now`.
`t.when.Since(now)` is `now - t.when` (time/monotonic/time.go: `Since`), `/` truncates towards
zero, and every operation wraps. -/
def nextWhen (tWhen period now : U64) : U64 :=
  let delta := now - tWhen
  let w := tWhen + period * (1#64 + (-delta).sdiv period)
  if w.slt 0#64 then maxWhen else w

/-- timer/timing.go:584-594, without contention: the new value of `timerModifiedEarliest`. -/
def updateModifiedEarliest (old nextWhen : U64) : U64 :=
  if old ≠ 0#64 ∧ old.slt nextWhen then old else nextWhen

/-- timer/timing.go:597-610 -/
def sleepUntil (timer0When modifiedEarliest : U64) : U64 :=
  let u := if timer0When ≠ 0#64 ∧ timer0When.slt maxWhen then timer0When else maxWhen
  if modifiedEarliest ≠ 0#64 ∧ modifiedEarliest.slt u then modifiedEarliest else u

/-- timer/timing.go:615-622 -/
def noBarrierWakeTime (timer0When modifiedEarliest : U64) : U64 :=
  if timer0When = 0#64 ∨ (modifiedEarliest ≠ 0#64 ∧ modifiedEarliest.slt timer0When) then
    modifiedEarliest
  else timer0When

end Memar.Timer
