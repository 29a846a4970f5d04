import Verif.Timer.Timing

/-!
# What the users of timers rely on

The calls a program makes on the timers of one queue, and what they mean: a timer is armed with a
deadline or it is not.  Nothing here mentions the heap, the counters or the statuses.
-/

namespace Memar.Timer.Queue

/-- A call, with the clock reading it makes. -/
inductive Call
  | start (t : Nat) (d now : Int)
  | stop (t : Nat)
  | reset (t : Nat) (d now : Int)
  | tick (t : Nat) (first interval now : Int)
  /-- the scheduler looks for timers to run (at most `fuel`) -/
  | check (fuel : Nat) (now : Int)
deriving Repr

/-- Run a call of the model. -/
def Call.run (tg : Tg) : Call → Out (Tg × Option Err)
  | .start t d now => Queue.start tg t d now
  | .stop t => Queue.stop tg t
  | .reset t d now => Queue.reset tg t d now
  | .tick t f i now => Queue.tick tg t f i now
  | .check fuel now => (checkTimers fuel tg now).bind fun r => .ok (r.1, none)

/-- Run calls one after the other, as long as each returns. -/
def runCalls : List Call → Tg → Out Tg
  | [], tg => .ok tg
  | c :: cs, tg => (c.run tg).bind fun r => runCalls cs r.1

/-- The abstract state: the deadline of each armed timer, and each timer's period. -/
structure Armed where
  due : Nat → Option Int
  period : Nat → Int

def upd {α : Type} (f : Nat → α) (t : Nat) (v : α) : Nat → α := fun u => if u = t then v else f u

/-- The new deadline of a periodic timer with the deadline `w` and the period `p`, run at `now`: run before the
deadline that follows, it gets that deadline; run `k` whole periods late, it goes back `k - 1` periods, and if that is
before the start of the clock, it gets the last moment of the clock. -/
def NextDeadline (w p now w' : Int) : Prop :=
  (w ≤ now → now < w + p → 0 ≤ now → w' = w + p) ∧
  ∀ k : Int, 1 ≤ k → w + k * p ≤ now → now < w + (k + 1) * p →
    (0 ≤ w - (k - 1) * p → w' = w - (k - 1) * p) ∧ (w - (k - 1) * p < 0 → w' = 9223372036854775807)

/-- A run of callbacks at the time `now`: each is of an armed timer whose deadline has come; a
one-shot timer is then no longer armed, a periodic one gets a new deadline. -/
inductive Fires (now : Int) : Armed → List (Nat × Int) → Armed → Prop
  | nil (a : Armed) : Fires now a [] a
  | once (a : Armed) (t : Nat) (w : Int) (rest : List (Nat × Int)) (a' : Armed)
      (armed : a.due t = some w) (come : w ≤ now) (oneshot : a.period t ≤ 0)
      (more : Fires now ⟨upd a.due t none, a.period⟩ rest a') : Fires now a ((t, now) :: rest) a'
  | again (a : Armed) (t : Nat) (w w' : Int) (rest : List (Nat × Int)) (a' : Armed)
      (armed : a.due t = some w) (come : w ≤ now) (periodic : a.period t > 0)
      (next : NextDeadline w (a.period t) now w')
      (more : Fires now ⟨upd a.due t (some w'), a.period⟩ rest a') :
      Fires now a ((t, now) :: rest) a'

/-- What a call that returned `r` and ran the callbacks `new` may do to the armed timers. -/
def Call.Spec : Call → Armed → Option Err → List (Nat × Int) → Armed → Prop
  | .start t d now, a, r, new, a' =>
    new = [] ∧ a' = if r = none then ⟨upd a.due t (some (now + d)), a.period⟩ else a
  | .stop t, a, _, new, a' => new = [] ∧ a' = ⟨upd a.due t none, a.period⟩
  | .reset t d now, a, r, new, a' =>
    new = [] ∧ a' = if r = none then
      ⟨upd a.due t (some (now + d)), if a.period t ≠ 0 then upd a.period t d else a.period⟩ else a
  | .tick t f i now, a, r, new, a' =>
    new = [] ∧ a'.due = (if r = none then upd a.due t (some (now + f)) else a.due) ∧
      (r = none → a'.period = upd a.period t i) ∧ ∀ u, u ≠ t → a'.period u = a.period u
  | .check _ now, a, r, new, a' => r = none ∧ Fires now a new a'

/-- A whole program: the callbacks it sees and the timers armed in the end. -/
inductive History : List Call → Armed → List (Nat × Int) → Armed → Prop
  | nil (a : Armed) : History [] a [] a
  | cons (c : Call) (cs : List Call) (a a1 a2 : Armed) (r : Option Err)
      (new rest : List (Nat × Int)) (one : c.Spec a r new a1) (more : History cs a1 rest a2) :
      History (c :: cs) a (new ++ rest) a2

/-- The armed timers of a queue. -/
def armed (tg : Tg) : Armed :=
  ⟨fun t => match (tg.tm t).status with
      | .waiting | .modifiedEarlier | .modifiedLater => some (tg.tm t).when
      | _ => none,
   fun t => (tg.tm t).period⟩

end Memar.Timer.Queue
