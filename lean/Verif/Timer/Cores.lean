import Verif.Timer.TimingSpec

/-!
# Model of the timing queues of all cores

One timing queue for each logical core; a timer is put in the queue of the core that starts it, and the loop of each
queue runs in a thread of its own.  A timer is started on one core only, so that the queue of that core holds its
state.  Which core a thread runs on is a parameter: the scheduler is not part of the repository.
-/

namespace Memar.Timer.Queue

open Memar.Timer

/-- timer/timing.go:26-51: the queue of one core, the core it says it is for, and whether the loop of timer/timing.go:99-107
was started for it. -/
structure Core where
  tg : Tg
  coreID : Nat
  looping : Bool

/-- timer/timing.go:56-69 `Init`, with timer/timing-heap.go:23-27, which does nothing; `on` is the core that runs it
(cpu/core.go:9-11). -/
def Core.init (c : Core) (on : Nat) : Core := { c with coreID := on, looping := true }

/-- timer/init.go:14-16, for the cores in the list; `on id` is the core the `id`-th round runs on.  `none` is the
panic of an index out of range. -/
def initLoop (on : Nat → Nat) : List Nat → List Core → Option (List Core)
  | [], p => some p
  | id :: ids, p =>
    match p[id]? with
    | none => none
    | some c => initLoop on ids (p.set id (c.init (on id)))

/-- timer/init.go:10-17: the queues when the program starts, on a machine that shows `cpus` cores (cpu/core.go:17) to a
program that runs on `procs` of them at a time. -/
def initCores (cpus procs : Nat) (on : Nat → Nat) : Option (List Core) :=
  initLoop on (List.range procs) (List.replicate cpus ⟨Tg.init, 0, false⟩)

/-- What happens on the machine: a call on a timer, in the queue of the core (timer/init.go:19-25 for the calls that
choose a queue), or a round of the loop of a queue. -/
inductive Ev
  | call (core : Nat) (c : Call)
  | round (core fuel : Nat) (now : Int)
deriving Repr

/-- One event: timer/init.go:23-25 panics for a core that has no queue; timer/timing.go:99-107 runs the rounds of a
queue whose loop was started. -/
def evStep (p : List Core) : Ev → Out (List Core)
  | .call core c =>
    match p[core]? with
    | none => .panic
    | some k => (c.run k.tg).bind fun r => .ok (p.set core { k with tg := r.1 })
  | .round core fuel now =>
    match p[core]? with
    | none => .ok p
    | some k =>
      if k.looping then (checkTimers fuel k.tg now).bind fun r => .ok (p.set core { k with tg := r.1 })
      else .ok p

/-- Events one after the other. -/
def evRun : List Ev → List Core → Out (List Core)
  | [], p => .ok p
  | e :: es, p => (evStep p e).bind fun p1 => evRun es p1

end Memar.Timer.Queue
