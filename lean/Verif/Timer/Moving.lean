import Verif.Timer.TimingSpec

/-!
# Model of moving timers to the queue of another core, emptying a queue, and checking it

All timers are of one queue here. `same` says that the queue moved to is the queue moved from; another queue takes
part only through its lock, which `moveTimersTo` holds while `AddTimer` locks it again.
-/

namespace Memar.Timer.Queue
open Memar.Timer

/-- timer/timing.go:234-272: one round of the loop of `moveTimers`, for the entry `b`. -/
def moveStep (tg : Tg) (b : Bucket Nat) : Out Tg :=
  match (tg.tm b.timer).status with
  /- line 246: `AddTimer` of the receiving queue, whose lock line 222 took -/
  | .waiting | .modifiedEarlier | .modifiedLater => addTimerLocked
  | .deleted => .ok ((tg.setStatus b.timer .removed).setTiming b.timer false)
  | .modifying => .wait
  | .unset | .removed | .running | .removing | .moving => .fatal

/-- timer/timing.go:234-272 `moveTimers`. The queue the entries come from is not changed. -/
def moveLoop : List (Bucket Nat) → Tg → Out Tg
  | [], tg => .ok tg
  | b :: bs, tg => (moveStep tg b).bind fun tg1 => moveLoop bs tg1

/-- timer/timing.go:218-228 `moveTimersTo`: locks this queue, then the other. It is all that timer/timing.go:111-116
`MoveToMe` does, with the queue of the running core. -/
def moveTimersTo (same : Bool) (tg : Tg) : Out Tg :=
  if tg.heap.length > 0 then
    if same then .deadlock else moveLoop tg.heap tg
  else .ok tg

/-- timer/timing.go:75-89 `Reinit`, with timer/timing-heap.go:28-32; the queue moved to is the one of the core that runs
this. -/
def reinit (same : Bool) (tg : Tg) : Out Tg :=
  (moveTimersTo same tg).bind fun tg1 =>
    .ok { tg1 with timer0When := 0, modifiedEarliest := 0, timersCount := 0, deletedCount := 0, heap := [] }

/-- timer/timing.go:558-564: entry `i` against its parent. -/
def verifyAt (timers : List (Bucket Nat)) (i : Nat) : Out Unit :=
  match timers[i]?, timers[(i - 1) / heapAry]? with
  | some b, some p => if b.when < p.when then .fatal else .ok ()
  | _, _ => .panic

/-- timer/timing.go:558-564: the loop, from entry `i`, `n` entries. -/
def verifyLoop (timers : List (Bucket Nat)) : Nat → Nat → Out Unit
  | 0, _ => .ok ()
  | n + 1, i => (verifyAt timers i).bind fun _ => verifyLoop timers n (i + 1)

/-- timer/timing.go:554-570 `verifyTimerHeap` -/
def verifyTimerHeap (tg : Tg) : Out Unit :=
  (verifyLoop tg.heap (tg.heap.length - 1) 1).bind fun _ =>
    if (tg.heap.length : Int) ≠ tg.timersCount then .fatal else .ok ()

end Memar.Timer.Queue
