import Verif.Timer.TimingSpec

/-!
# Callbacks that use the timers themselves

`Verif/Timer/Timing.lean` takes a callback for something that leaves the queue alone.  Here a callback is a program of
its own: it may start, stop, reset and tick any timer of the queue, decide what to do next by what those calls
answered, and keep a state of its own.  `runOneTimer` gives the lock of the queue back while the callback runs
(timer/timing.go:454-458), so those calls are the ones of `Timing.lean` with the lock free, and the scheduler goes on
with whatever queue the callback left.
-/

namespace Memar.Timer.Queue

/-- A call of a timer method, with the clock reading it makes. -/
inductive TCall
  | start (t : Nat) (d now : Int)
  | stop (t : Nat)
  | reset (t : Nat) (d now : Int)
  | tick (t : Nat) (first interval now : Int)
deriving Repr, DecidableEq

def TCall.toCall : TCall → Call
  | .start t d now => .start t d now
  | .stop t => .stop t
  | .reset t d now => .reset t d now
  | .tick t f i now => .tick t f i now

/-- What a callback does: it is done and leaves its state, or it makes a call and goes on as the answer tells it. -/
inductive Act (S : Type) where
  | done (s : S)
  | call (c : TCall) (k : Option Err → Act S)

/-- The callbacks of all timers: what the callback of timer `t` does in the state `s` when the scheduler runs it at the
time `now`, timer/timer-async.go:33 and 51-60 (`TimerHandler`). -/
abbrev Handlers (S : Type) := S → Nat → Int → Act S

/-- The body of a callback, run between the unlocking and the locking of timer/timing.go:455-457. -/
def runAct {S : Type} : Act S → Tg → Out (Tg × S)
  | .done s, tg => .ok (tg, s)
  | .call c k, tg => (c.toCall.run tg).bind fun r => runAct (k r.2) r.1

/-- The callbacks of the timers just run (timer/timing.go:369-459 runs at most one), in order. -/
def runFired {S : Type} (cb : Handlers S) : List (Nat × Int) → Tg → S → Out (Tg × S)
  | [], tg, s => .ok (tg, s)
  | (t, now) :: rest, tg, s => (runAct (cb s t now) tg).bind fun r => runFired cb rest r.1 r.2

/-- The loop of timer/timing.go:658-668, with the callbacks run in it: at most `fuel` timers are run. -/
def runAllCb {S : Type} (cb : Handlers S) : Nat → Tg → S → Int → Out (Tg × S × Int × Bool)
  | fuel, tg, s, now =>
    if tg.heap.length > 0 then
      (runTimer tg.heap.length tg now).bind fun (tg1, tw) =>
        (runFired cb (tg1.fired.drop tg.fired.length) tg1 s).bind fun (tg2, s2) =>
          if tw ≠ 0 then .ok (tg2, s2, if tw > 0 then tw else 0, false)
          else
            match fuel with
            | 0 => .more
            | fuel + 1 => (runAllCb cb fuel tg2 s2 now).bind fun (tg3, s3, nw, _) => .ok (tg3, s3, nw, true)
    else .ok (tg, s, 0, false)

/-- timer/timing.go:637-678, with the callbacks run in it. -/
def checkTimersCb {S : Type} (cb : Handlers S) (fuel : Nat) (tg : Tg) (s : S) (now : Int) :
    Out (Tg × S × Int × Bool) :=
  if wakeTime tg = 0 then .ok (tg, s, 0, false)
  else if now < wakeTime tg ∧ isCleanNeed tg = false then .ok (tg, s, wakeTime tg, false)
  else
    ((if tg.heap.length > 0 then (adjustTimers tg now).bind fun tg1 => runAllCb cb fuel tg1 s now
      else .ok (tg, s, 0, false)) : Out (Tg × S × Int × Bool)).bind fun (tg2, s2, nw, ran) =>
      if tg2.deletedCount > ((tg2.heap.length / 4 : Nat) : Int) then
        (clearDeleted tg2).bind fun tg3 => .ok (tg3, s2, nw, ran)
      else .ok (tg2, s2, nw, ran)

/-- What happens to a queue from outside: a call of a timer method, or the scheduler looks for timers to run. -/
inductive Op
  | call (c : TCall)
  | check (fuel : Nat) (now : Int)
deriving Repr, DecidableEq

def Op.run {S : Type} (cb : Handlers S) (tg : Tg) (s : S) : Op → Out (Tg × S × Option Err)
  | .call c => (c.toCall.run tg).bind fun r => .ok (r.1, s, r.2)
  | .check fuel now => (checkTimersCb cb fuel tg s now).bind fun r => .ok (r.1, r.2.1, none)

/-- A whole program, as long as everything returns. -/
def runOps {S : Type} (cb : Handlers S) : List Op → Tg → S → Out (Tg × S)
  | [], tg, s => .ok (tg, s)
  | o :: os, tg, s => (o.run cb tg s).bind fun r => runOps cb os r.1 r.2.1

/-- A queue some program got from the empty queue by calls that all returned, whatever the callbacks did. -/
def Reachable (tg : Tg) : Prop :=
  ∃ (S : Type) (cb : Handlers S) (os : List Op) (s s' : S), runOps cb os Tg.init s = .ok (tg, s')

/-! ## The specification -/

/-- What a callback may do to the armed timers: its calls, one after the other. -/
inductive Acts {S : Type} : Act S → Armed → Armed → S → Prop
  | done (s : S) (a : Armed) : Acts (.done s) a a s
  | call (c : TCall) (k : Option Err → Act S) (a a1 a2 : Armed) (r : Option Err) (s : S)
      (one : c.toCall.Spec a r [] a1) (more : Acts (k r) a1 a2 s) : Acts (.call c k) a a2 s

/-- A look of the scheduler at the time `now`: each firing is of an armed timer whose deadline has come, and its callback
has done all its calls before the next timer is run. -/
inductive Looks {S : Type} (cb : Handlers S) (now : Int) : Armed → S → List (Nat × Int) → Armed → S → Prop
  | nil (a : Armed) (s : S) : Looks cb now a s [] a s
  | cons (a a1 a2 a3 : Armed) (s s1 s2 : S) (t : Nat) (rest : List (Nat × Int))
      (fire : Fires now a [(t, now)] a1) (does : Acts (cb s t now) a1 a2 s1)
      (more : Looks cb now a2 s1 rest a3 s2) : Looks cb now a s ((t, now) :: rest) a3 s2

/-- A whole program: the callbacks that ran, the timers armed in the end and the state of the callbacks. -/
inductive Behaves {S : Type} (cb : Handlers S) : List Op → Armed → S → List (Nat × Int) → Armed → S → Prop
  | nil (a : Armed) (s : S) : Behaves cb [] a s [] a s
  | call (c : TCall) (os : List Op) (a a1 a2 : Armed) (r : Option Err) (s s2 : S) (rest : List (Nat × Int))
      (one : c.toCall.Spec a r [] a1) (more : Behaves cb os a1 s rest a2 s2) :
      Behaves cb (.call c :: os) a s rest a2 s2
  | check (fuel : Nat) (now : Int) (os : List Op) (a a1 a2 : Armed) (s s1 s2 : S) (new rest : List (Nat × Int))
      (one : Looks cb now a s new a1 s1) (more : Behaves cb os a1 s1 rest a2 s2) :
      Behaves cb (.check fuel now :: os) a s (new ++ rest) a2 s2

end Memar.Timer.Queue
