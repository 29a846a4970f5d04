import Verif.Timer.HeapLemmas
import Verif.Timer.Status

/-!
# Model of `timer/timing.go` and of the timer methods that use it

One timing queue and its timers, driven by one goroutine at a time: every call runs to its end
before the next one starts, so each compare-and-swap that tests the status just loaded succeeds
and is written as an assignment.  (The concurrent status protocol is `Verif/Timer/Status.lean`.)

Simplifications.
* Deadlines and durations are mathematical integers: the 64-bit range is the subject of
  `Verif/Timer/When.lean`.  The clock reading is a parameter of each call.
* The 32-bit counters are mathematical integers.
* All timers belong to this one queue; a timer is a number.
* A callback does nothing to the queue; that it was called, with the `now` in use, is recorded in
  `fired`.  Callbacks that use the timers are in `Verif/Timer/Callback.lean`.
* Race-detector calls are left out.
-/

namespace Memar.Timer.Queue

open Memar.Timer

/-- How a call ends. -/
inductive Out (α : Type) where
  | ok (a : α)
  /-- a run-time panic (index out of range, nil pointer) -/
  | panic
  /-- the goroutine locks `timingHeapSync`, which it already holds: it never continues -/
  | deadlock
  /-- `log.Fatal` is called: it only logs (log/log-helpers.go:63-67), but what follows is not modelled -/
  | fatal
  /-- the goroutine yields for ever, waiting for a status nobody is going to change -/
  | wait
  /-- the step bound given to the model was too small -/
  | more
deriving Repr

def Out.bind {α β : Type} : Out α → (α → Out β) → Out β
  | .ok a, f => f a
  | .panic, _ => .panic
  | .deadlock, _ => .deadlock
  | .fatal, _ => .fatal
  | .wait, _ => .wait
  | .more, _ => .more

/-- The fields of `Async` used here, timer/timer-async.go:32-48; `timing` is whether the back
pointer is set, and the callback is set (the timer is initialised). -/
structure Tm where
  when : Int
  period : Int
  status : Status
  timing : Bool
deriving Repr

/-- timer/timing.go:26-51, with the timers it can reach and the record of callbacks. -/
structure Tg where
  tm : Nat → Tm
  heap : List (Bucket Nat)
  timer0When : Int
  modifiedEarliest : Int
  timersCount : Int
  deletedCount : Int
  fired : List (Nat × Int)

def Tg.setStatus (tg : Tg) (t : Nat) (s : Status) : Tg :=
  { tg with tm := fun u => if u = t then { tg.tm t with status := s } else tg.tm u }

def Tg.setTiming (tg : Tg) (t : Nat) (b : Bool) : Tg :=
  { tg with tm := fun u => if u = t then { tg.tm t with timing := b } else tg.tm u }

def Tg.setWhen (tg : Tg) (t : Nat) (w : Int) : Tg :=
  { tg with tm := fun u => if u = t then { tg.tm t with when := w } else tg.tm u }

def Tg.setPeriod (tg : Tg) (t : Nat) (p : Int) : Tg :=
  { tg with tm := fun u => if u = t then { tg.tm t with period := p } else tg.tm u }

/-- timer/timing.go:574-580 -/
def updateTimer0When (tg : Tg) : Tg :=
  { tg with timer0When := match tg.heap[0]? with
                          | none => 0
                          | some b => b.when }

/-- timer/timing.go:148-152 and 163-167 -/
def countDown (tg : Tg) : Tg :=
  { tg with
    timersCount := tg.timersCount - 1
    modifiedEarliest := if tg.timersCount - 1 = 0 then 0 else tg.modifiedEarliest }

/-- timer/timing.go:159-168; the back pointer of the removed timer is cleared by
timer/timing-heap.go:74. -/
def deleteTimer0 (tg : Tg) : Out Tg :=
  match tg.heap[0]? with
  | none => .panic
  | some b =>
    match Timer.deleteTimer0 tg.heap with
    | none => .panic
    | some h => .ok (countDown (updateTimer0When { tg.setTiming b.timer false with heap := h }))

/-- timer/timing.go:141-154; the back pointer is cleared by timer/timing-heap.go:51. -/
def deleteTimer (tg : Tg) (i : Nat) : Out (Tg × Nat) :=
  match tg.heap[i]? with
  | none => .panic
  | some b =>
    match Timer.deleteTimer tg.heap i with
    | none => .panic
    | some (h, changed) =>
      let tg1 := { tg.setTiming b.timer false with heap := h }
      let tg2 := if i = 0 then updateTimer0When tg1 else tg1
      .ok (countDown tg2, changed)

/-- timer/timing.go:119-136 called while `timingHeapSync` is held by the caller: line 120 locks a
`sync.Mutex` that is already locked by the same goroutine. -/
def addTimerLocked {α : Type} : Out α := .deadlock

/-- The loop of timer/timing.go:179-215.  Every iteration but the last removes an entry; `n` is
the number of entries. -/
def cleanLoop : Nat → Tg → Out Tg
  | n, tg =>
    /- line 187: `tg.timers[0]` -/
    match tg.heap[0]? with
    | none => .panic
    | some b =>
      match (tg.tm b.timer).status with
      | .deleted =>
        match deleteTimer0 (tg.setStatus b.timer .removing) with
        | .ok tg1 =>
          let tg2 := tg1.setStatus b.timer .removed
          let tg3 := { tg2 with deletedCount := tg2.deletedCount - 1 }
          match n with
          | 0 => .more
          | n + 1 => cleanLoop n tg3
        | .panic => .panic
        | .deadlock => .deadlock
        | .fatal => .fatal
        | .wait => .wait
        | .more => .more
      /- lines 199-210: `deleteTimer0`, then `AddTimer` with the lock held -/
      | .modifiedEarlier | .modifiedLater => addTimerLocked
      | _ => .ok tg

/-- timer/timing.go:174-216 -/
def cleanTimers (tg : Tg) : Out Tg :=
  if tg.heap.length = 0 then .ok tg else cleanLoop tg.heap.length tg

/-- timer/timing.go:119-136, with the lock free. -/
def addTimer (tg : Tg) (t : Nat) : Out Tg :=
  (cleanTimers tg).bind fun tg1 =>
    let w := (tg1.tm t).when
    let tg2 := tg1.setTiming t true
    match Timer.insert tg2.heap ⟨t, w⟩ with
    | none => .panic
    | some h =>
      let tg3 := { tg2 with heap := h }
      match h[0]? with
      | none => .panic
      | some b =>
        let tg4 := if b.timer = t then { tg3 with timer0When := w } else tg3
        .ok { tg4 with timersCount := tg4.timersCount + 1 }

/-- The errors of the timer methods. -/
inductive Err
  | notInit | negativeDuration | alreadyStarted
deriving DecidableEq, Repr

/-- timer/timer-async.go:93-124 for an initialised timer; `now` is the clock read by `when(d)`. -/
def start (tg : Tg) (t : Nat) (d now : Int) : Out (Tg × Option Err) :=
  if d < 1 then .ok (tg, some .negativeDuration)
  else if (tg.tm t).status ≠ .unset ∨ (tg.tm t).timing = true then .ok (tg, some .alreadyStarted)
  else
    (addTimer (((tg.setStatus t .waiting).setWhen t (now + d)).setTiming t true) t).bind
      fun tg1 => .ok (tg1, none)

/-- timer/timer-async.go:131-168 for an initialised timer.  `timing` of line 147 is the queue:
a nil back pointer panics at line 151. -/
def stop (tg : Tg) (t : Nat) : Out (Tg × Option Err) :=
  match (tg.tm t).status with
  | .unset => .ok (tg, some .notInit)
  | .waiting | .modifiedLater | .modifiedEarlier =>
    if (tg.tm t).timing then
      let tg1 := tg.setStatus t .deleted
      .ok ({ tg1 with deletedCount := tg1.deletedCount + 1 }, none)
    else .panic
  | .deleted | .removing | .removed => .ok (tg, none)
  | .running | .moving | .modifying => .wait

/-- timer/timing.go:584-594 -/
def updateModified (tg : Tg) (w : Int) : Tg :=
  if tg.modifiedEarliest ≠ 0 ∧ tg.modifiedEarliest < w then tg
  else { tg with modifiedEarliest := w }

/-- timer/timer-async.go:228-258, from the status `modifying`. -/
def resetTail (tg : Tg) (t : Nat) (d now : Int) (wasRemoved : Bool) : Out (Tg × Option Err) :=
  let oldWhen := (tg.tm t).when
  let newWhen := now + d
  let tg0 := tg.setWhen t newWhen
  let tg1 := if (tg0.tm t).period ≠ 0 then tg0.setPeriod t d else tg0
  if wasRemoved then
    (addTimer (tg1.setTiming t true) t).bind fun tg2 => .ok (tg2.setStatus t .waiting, none)
  else if newWhen < oldWhen then
    if (tg1.tm t).timing then
      .ok ((updateModified tg1 newWhen).setStatus t .modifiedEarlier, none)
    else .panic
  else .ok (tg1.setStatus t .modifiedLater, none)

/-- timer/timer-async.go:175-261 for an initialised timer. -/
def reset (tg : Tg) (t : Nat) (d now : Int) : Out (Tg × Option Err) :=
  if d < 1 then .ok (tg, some .negativeDuration)
  else
    match (tg.tm t).status with
    | .waiting | .modifiedEarlier | .modifiedLater =>
      resetTail (tg.setStatus t .modifying) t d now false
    | .unset | .removed => resetTail (tg.setStatus t .modifying) t d now true
    | .deleted =>
      if (tg.tm t).timing then
        let tg1 := tg.setStatus t .modifying
        resetTail { tg1 with deletedCount := tg1.deletedCount - 1 } t d now false
      else .panic
    | .running | .removing | .moving | .modifying => .wait

/-- timer/timer-async.go:270-278 for an initialised timer: the period is set before `Start`
decides anything. -/
def tick (tg : Tg) (t : Nat) (first interval now : Int) : Out (Tg × Option Err) :=
  if first < 1 ∨ interval < 1 then .ok (tg, some .negativeDuration)
  else
    start (tg.setPeriod t interval) t first now

theorem deleteTimer_length {tg tg' : Tg} {i changed : Nat}
    (h : deleteTimer tg i = .ok (tg', changed)) : tg'.heap.length < tg.heap.length := by
  unfold deleteTimer at h
  split at h
  · cases h
  · rename_i b hb
    have hi := (List.getElem?_eq_some_iff.mp hb).1
    obtain ⟨l', j, r1, r2, _⟩ := deleteTimer_spec tg.heap i hi
    rw [r1] at h
    simp only [Out.ok.injEq, Prod.mk.injEq] at h
    have hl := r2.length_eq
    simp only [List.length_cons] at hl
    rw [← h.1]
    by_cases h0 : i = 0 <;> simp [h0, countDown, updateTimer0When] <;> omega

/-- The loop of timer/timing.go:298-336.  `len` is the length of the slice read at line 296; the
slots past the current end of the heap were cleared by timer/timing-heap.go:57, so their `timer` is nil
and line 300 panics.  `moved` are the timers taken out to be inserted again. -/
def adjustLoop (len : Nat) (i : Nat) (tg : Tg) (moved : List Nat) : Out (Tg × List Nat) :=
  if _hi : i < len then
    match tg.heap[i]? with
    | none => .panic
    | some b =>
      match (tg.tm b.timer).status with
      | .deleted =>
        match _hd : deleteTimer (tg.setStatus b.timer .removing) i with
        | .ok (tg1, changed) =>
          let tg2 := tg1.setStatus b.timer .removed
          adjustLoop len changed { tg2 with deletedCount := tg2.deletedCount - 1 } moved
        | .panic => .panic
        | .deadlock => .deadlock
        | .fatal => .fatal
        | .wait => .wait
        | .more => .more
      | .modifiedEarlier | .modifiedLater =>
        match _hd : deleteTimer (tg.setStatus b.timer .moving) i with
        | .ok (tg1, changed) => adjustLoop len changed tg1 (moved ++ [b.timer])
        | .panic => .panic
        | .deadlock => .deadlock
        | .fatal => .fatal
        | .wait => .wait
        | .more => .more
      | .waiting => adjustLoop len (i + 1) tg moved
      | .modifying => .wait
      | .unset | .running | .removing | .removed | .moving => .fatal
  else .ok (tg, moved)
termination_by (tg.heap.length, len - i)
decreasing_by
  · have := deleteTimer_length _hd
    simp only [Tg.setStatus] at this ⊢
    exact Prod.Lex.left _ _ this
  · have := deleteTimer_length _hd
    simp only [Tg.setStatus] at this ⊢
    exact Prod.Lex.left _ _ this
  · exact Prod.Lex.right _ (by omega)

/-- timer/timing.go:278-345 (`verifyTimers` is false). -/
def adjustTimers (tg : Tg) (now : Int) : Out Tg :=
  if tg.modifiedEarliest = 0 ∨ tg.modifiedEarliest > now then .ok tg
  else
    (adjustLoop tg.heap.length 0 { tg with modifiedEarliest := 0 } []).bind fun (tg1, moved) =>
      /- lines 338-340 and 351: `AddTimer` with the lock held -/
      if moved.length > 0 then addTimerLocked else .ok tg1

/-- timer/const.go:10 `maxWhen` as an integer. -/
def maxWhenInt : Int := 9223372036854775807

/-- The deadline of timer/timing.go:431-435 over the integers: `Since` is `now - when`; a negative deadline is taken
for an overflow. -/
def nextWhenInt (w period now : Int) : Int :=
  if w + period * (1 + (-(now - w)).tdiv period) < 0 then maxWhenInt
  else w + period * (1 + (-(now - w)).tdiv period)

/-- timer/timing.go:424-462 for the first timer `t` of the heap, whose status is `running`.
The heap keeps the old deadline of a periodic timer: only `t.when` is written. -/
def runOneTimer (tg : Tg) (t : Nat) (now : Int) : Out Tg :=
  if (tg.tm t).period > 0 then
    let tg1 := tg.setWhen t (nextWhenInt (tg.tm t).when (tg.tm t).period now)
    match siftDown tg1.heap 0 with
    | none => .panic
    | some h =>
      let tg2 := updateTimer0When ({ tg1 with heap := h }.setStatus t .waiting)
      .ok { tg2 with fired := tg2.fired ++ [(t, now)] }
  else
    (deleteTimer0 tg).bind fun tg1 =>
      let tg2 := tg1.setStatus t .unset
      .ok { tg2 with fired := tg2.fired ++ [(t, now)] }

/-- timer/timing.go:364-419.  Every iteration but the last removes an entry. -/
def runTimer : Nat → Tg → Int → Out (Tg × Int)
  | n, tg, now =>
    match tg.heap[0]? with
    | none => .panic
    | some b =>
      match (tg.tm b.timer).status with
      | .waiting =>
        if (tg.tm b.timer).when > now then .ok (tg, (tg.tm b.timer).when)
        else
          (runOneTimer (tg.setStatus b.timer .running) b.timer now).bind fun tg1 => .ok (tg1, 0)
      | .deleted =>
        match deleteTimer0 (tg.setStatus b.timer .removing) with
        | .ok tg1 =>
          let tg2 := tg1.setStatus b.timer .removed
          let tg3 := { tg2 with deletedCount := tg2.deletedCount - 1 }
          if tg3.heap.length = 0 then .ok (tg3, -1)
          else
            match n with
            | 0 => .more
            | n + 1 => runTimer n tg3 now
        | .panic => .panic
        | .deadlock => .deadlock
        | .fatal => .fatal
        | .wait => .wait
        | .more => .more
      | .modifiedEarlier | .modifiedLater => addTimerLocked
      | .modifying => .wait
      | .unset | .removed | .running | .removing | .moving => .fatal

/-- The loop of timer/timing.go:658-668: at most `fuel` timers are run. -/
def runAll : Nat → Tg → Int → Out (Tg × Int × Bool)
  | fuel, tg, now =>
    if tg.heap.length > 0 then
      match runTimer tg.heap.length tg now with
      | .ok (tg1, tw) =>
        if tw ≠ 0 then .ok (tg1, if tw > 0 then tw else 0, false)
        else
          match fuel with
          | 0 => .more
          | fuel + 1 => (runAll fuel tg1 now).bind fun (tg2, nw, _) => .ok (tg2, nw, true)
      | .panic => .panic
      | .deadlock => .deadlock
      | .fatal => .fatal
      | .wait => .wait
      | .more => .more
    else .ok (tg, 0, false)

/-- The state of the loop of timer/timing.go:484-531: the slice, the number of entries kept, and
whether the heap was changed. -/
structure Sweep where
  tg : Tg
  arr : List (Bucket Nat)
  kept : Nat
  changed : Bool
  cdel : Int

/-- timer/timing.go:491-492 and 499-500: `timers[to] = b; SiftUpTimer(to)`. -/
def sweepPut (arr : List (Bucket Nat)) (kept : Nat) (b : Bucket Nat) : Option (List (Bucket Nat)) :=
  match setAt arr kept b with
  | none => none
  | some a => (siftUp a kept).map (·.1)

/-- One iteration of timer/timing.go:484-531, for entry `i`. -/
def sweepStep (s : Sweep) (i : Nat) : Out Sweep :=
  match s.arr[i]? with
  | none => .panic
  | some b =>
    match (s.tg.tm b.timer).status with
    | .waiting =>
      if s.changed then
        match sweepPut s.arr s.kept b with
        | none => .panic
        | some a => .ok { s with arr := a, kept := s.kept + 1 }
      else .ok { s with kept := s.kept + 1 }
    | .modifiedEarlier | .modifiedLater =>
      match setAt s.arr i ⟨b.timer, (s.tg.tm b.timer).when⟩ with
      | none => .panic
      | some a0 =>
        match sweepPut a0 s.kept ⟨b.timer, (s.tg.tm b.timer).when⟩ with
        | none => .panic
        | some a =>
          .ok { s with tg := s.tg.setStatus b.timer .waiting, arr := a, kept := s.kept + 1
                       changed := true }
    | .deleted =>
      .ok { s with tg := (s.tg.setTiming b.timer false).setStatus b.timer .removed
                   changed := true, cdel := s.cdel + 1 }
    | .modifying => .wait
    | .unset | .removed | .running | .removing | .moving => .fatal

/-- timer/timing.go:484-531 -/
def sweepLoop : List Nat → Sweep → Out Sweep
  | [], s => .ok s
  | i :: is, s => (sweepStep s i).bind fun s' => sweepLoop is s'

/-- timer/timing.go:473-549 -/
def clearDeleted (tg : Tg) : Out Tg :=
  (sweepLoop (List.range tg.heap.length)
    ⟨{ tg with modifiedEarliest := 0 }, tg.heap, 0, false, 0⟩).bind fun s =>
    match sliceTo s.arr s.kept with
    | none => .panic
    | some h =>
      .ok (updateTimer0When { s.tg with
        heap := h
        deletedCount := s.tg.deletedCount - s.cdel
        timersCount := s.tg.timersCount - s.cdel })

/-- timer/timing.go:615-622 -/
def wakeTime (tg : Tg) : Int :=
  if tg.timer0When = 0 ∨ (tg.modifiedEarliest ≠ 0 ∧ tg.modifiedEarliest < tg.timer0When) then
    tg.modifiedEarliest
  else tg.timer0When

/-- timer/timing.go:626-631 -/
def isCleanNeed (tg : Tg) : Bool := decide (¬ tg.deletedCount ≤ tg.timersCount.tdiv 4)

/-- timer/timing.go:637-678, running at most `fuel` timers: the next deadline and whether any
timer was run. -/
def checkTimers (fuel : Nat) (tg : Tg) (now : Int) : Out (Tg × Int × Bool) :=
  if wakeTime tg = 0 then .ok (tg, 0, false)
  else if now < wakeTime tg ∧ isCleanNeed tg = false then .ok (tg, wakeTime tg, false)
  else
    ((if tg.heap.length > 0 then (adjustTimers tg now).bind fun tg1 => runAll fuel tg1 now
      else .ok (tg, 0, false)) : Out (Tg × Int × Bool)).bind fun (tg2, nw, ran) =>
      if tg2.deletedCount > ((tg2.heap.length / 4 : Nat) : Int) then
        (clearDeleted tg2).bind fun tg3 => .ok (tg3, nw, ran)
      else .ok (tg2, nw, ran)

/-- An empty queue and timers that were initialised but never started. -/
def Tg.init : Tg :=
  ⟨fun _ => ⟨0, 0, .unset, false⟩, [], 0, 0, 0, 0, []⟩

end Memar.Timer.Queue
