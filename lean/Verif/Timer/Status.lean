/-!
# Model of the timer status protocol

`timer/status.go`, `timer/timer-async.go` (Start, Stop, Reset) and the places of `timer/timing.go`
that change the status of a timer: one timer, any number of goroutines calling its methods
concurrently, and the holder of the lock `timingHeapSync` working on it.  Every atomic access to
the status is one step; a goroutine is a program counter.

Simplifications.
* Only the status word and the membership of the timer in the heap are kept; deadlines are not,
  so a choice that depends on a deadline (run it or leave it, earlier or later) is made freely.
  Every execution of the code is an execution of the model, not conversely.
* Steps made under the lock are those of one agent (`APc`), whoever holds the lock; taking a timer
  into the heap is a step of the caller that needs the lock to be free.
* The check `t.timing != nil` of timer/timer-async.go:106 may or may not succeed.
* `moveTimers` (timer/timing.go:234-272) is in `Timer/Moving.lean`.
* In the code the re-insertion of a moved timer calls `AddTimer` with the lock held and never
  returns (C21); here it may return, which only adds executions.
-/

namespace Memar.Timer

/-- timer/status.go:58-99 -/
inductive Status
  | unset | waiting | running | deleted | removing | removed | modifying
  | modifiedEarlier | modifiedLater | moving
deriving DecidableEq, Repr

namespace Protocol

/-- How a call returns. -/
inductive Res
  | /-- the call changed the status and returned no error -/ done
  | /-- Stop found the timer already stopped; no error -/ already
  | /-- `ErrTimerAlreadyStarted` -/ alreadyStarted
  | /-- `ErrTimerNotInit` -/ notInit
  | /-- `ErrTimerRacyAccess` from Start (timer/timer-async.go:112) -/ startRacy
  | /-- `ErrTimerRacyAccess` from Reset (timer/timer-async.go:238, 254) -/ resetRacy
deriving DecidableEq, Repr

/-- Where a goroutine calling a method of the timer is. -/
inductive UPc
  | idle
  | startLoad | startCas | startAdd
  | stopLoad | stopCas (old : Status)
  | resetLoad | resetCas (old : Status) | resetAdd | resetFin (wasRemoved : Bool)
  | ret (r : Res)
deriving DecidableEq, Repr

/-- Where the holder of the lock is with this timer. -/
inductive APc
  | idle | load
  | casRun | casRemove | casMove (old : Status)
  | removing1 | removing2
  | running1 | running2 | runningPeriodic
  | moving1 | moving2 | moving3
  | /-- `log.Fatal` -/ fatal
deriving DecidableEq, Repr

/-- One step of a goroutine inside Start, Stop or Reset: the possible new status, heap
membership and program counter. -/
def userSucc (st : Status) (inHeap lockFree : Bool) : UPc → List (Status × Bool × UPc)
  /- timer/timer-async.go:105-109 -/
  | .startLoad =>
    if st = .unset then [(st, inHeap, .startCas), (st, inHeap, .ret .alreadyStarted)]
    else [(st, inHeap, .ret .alreadyStarted)]
  /- timer/timer-async.go:111-114 -/
  | .startCas =>
    if st = .unset then [(.waiting, inHeap, .startAdd)] else [(st, inHeap, .ret .startRacy)]
  /- timer/timer-async.go:120-122 -/
  | .startAdd => if lockFree then [(st, true, .ret .done)] else []
  /- timer/timer-async.go:139-166 -/
  | .stopLoad =>
    match st with
    | .unset => [(st, inHeap, .ret .notInit)]
    | .waiting | .modifiedLater | .modifiedEarlier => [(st, inHeap, .stopCas st)]
    | .deleted | .removing | .removed => [(st, inHeap, .ret .already)]
    | .running | .moving | .modifying => [(st, inHeap, .stopLoad)]
  /- timer/timer-async.go:150-153 -/
  | .stopCas old =>
    if st = old then [(.deleted, inHeap, .ret .done)] else [(st, inHeap, .stopLoad)]
  /- timer/timer-async.go:196-225 -/
  | .resetLoad =>
    match st with
    | .waiting | .modifiedEarlier | .modifiedLater | .unset | .removed | .deleted =>
      [(st, inHeap, .resetCas st)]
    | .running | .removing | .moving | .modifying => [(st, inHeap, .resetLoad)]
  /- timer/timer-async.go:199, 205-206, 210 -/
  | .resetCas old =>
    if st = old then
      if old = .unset ∨ old = .removed then [(.modifying, inHeap, .resetAdd)]
      else [(.modifying, inHeap, .resetFin false)]
    else [(st, inHeap, .resetLoad)]
  /- timer/timer-async.go:235-236 -/
  | .resetAdd => if lockFree then [(st, true, .resetFin true)] else []
  /- timer/timer-async.go:237-241 and 246-257 -/
  | .resetFin wasRemoved =>
    if st = .modifying then
      if wasRemoved then [(.waiting, inHeap, .ret .done)]
      else [(.modifiedLater, inHeap, .ret .done), (.modifiedEarlier, inHeap, .ret .done)]
    else [(st, inHeap, .ret .resetRacy)]
  | .idle => []
  | .ret _ => []

/-- One step of the holder of the lock: cleanTimers (timer/timing.go:187-214), adjustTimers (299-335),
runTimer (366-417), runOneTimer (429-447) and clearDeletedTimers (487-529). -/
def agentSucc (st : Status) (inHeap : Bool) : APc → List (Status × Bool × APc)
  /- the lock is taken; only a timer in the heap is looked at -/
  | .idle => if inHeap then [(st, inHeap, .load)] else []
  | .load =>
    match st with
    | .waiting => [(st, inHeap, .idle), (st, inHeap, .casRun)]
    | .deleted => [(st, inHeap, .casRemove)]
    | .modifiedEarlier | .modifiedLater => [(st, inHeap, .casMove st)]
    | .modifying => [(st, inHeap, .load), (st, inHeap, .idle)]
    | .unset | .removed | .running | .removing | .moving => [(st, inHeap, .fatal)]
  /- timer/timing.go:375-379 -/
  | .casRun =>
    if st = .waiting then [(.running, inHeap, .running1), (.running, inHeap, .runningPeriodic)]
    else [(st, inHeap, .load)]
  /- timer/timing.go:191-193, 303, 383-385, 509 -/
  | .casRemove => if st = .deleted then [(.removing, inHeap, .removing1)] else [(st, inHeap, .load)]
  /- timer/timing.go:200-202, 314, 397-399, 497 -/
  | .casMove old => if st = old then [(.moving, inHeap, .moving1)] else [(st, inHeap, .load)]
  /- timer/timing.go:194-197 -/
  | .removing1 => [(st, false, .removing2)]
  | .removing2 =>
    if st = .removing then [(.removed, inHeap, .idle)] else [(st, inHeap, .fatal)]
  /- timer/timing.go:443-446 -/
  | .running1 => [(st, false, .running2)]
  | .running2 => if st = .running then [(.unset, inHeap, .idle)] else [(st, inHeap, .fatal)]
  /- timer/timing.go:429-439 -/
  | .runningPeriodic =>
    if st = .running then [(.waiting, inHeap, .idle)] else [(st, inHeap, .fatal)]
  /- timer/timing.go:206-210, 319-320 with 351-354, 400-404, 498-505 -/
  | .moving1 => [(st, false, .moving2)]
  | .moving2 => [(st, true, .moving3)]
  | .moving3 => if st = .moving then [(.waiting, inHeap, .idle)] else [(st, inHeap, .fatal)]
  | .fatal => []

/-- The timer, the lock holder, and the goroutines (any number of them, named by numbers). -/
structure State where
  st : Status
  inHeap : Bool
  agent : APc
  users : Nat → UPc

def upd (u : Nat → UPc) (i : Nat) (pc : UPc) : Nat → UPc := fun j => if j = i then pc else u j

/-- A newly allocated timer that nobody uses yet. -/
def State.init : State := ⟨.unset, false, .idle, fun _ => .idle⟩

/-- A goroutine is not inside a call. -/
def resting : UPc → Prop
  | .idle => True
  | .ret _ => True
  | _ => False

/-- The interleavings. -/
inductive Step : State → State → Prop
  | call (σ : State) (i : Nat) (pc : UPc) (h : resting (σ.users i))
      (hpc : pc = .startLoad ∨ pc = .stopLoad ∨ pc = .resetLoad) :
      Step σ { σ with users := upd σ.users i pc }
  | user (σ : State) (i : Nat) (s : Status) (m : Bool) (pc : UPc)
      (h : (s, m, pc) ∈ userSucc σ.st σ.inHeap (decide (σ.agent = .idle)) (σ.users i)) :
      Step σ ⟨s, m, σ.agent, upd σ.users i pc⟩
  | agent (σ : State) (s : Status) (m : Bool) (a : APc)
      (h : (s, m, a) ∈ agentSucc σ.st σ.inHeap σ.agent) :
      Step σ ⟨s, m, a, σ.users⟩

inductive Reachable : State → Prop
  | init : Reachable .init
  | step {σ τ : State} : Reachable σ → Step σ τ → Reachable τ

end Protocol
end Memar.Timer
