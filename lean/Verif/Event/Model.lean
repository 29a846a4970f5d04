import Verif.Base

/-!
# Event targets: event/target.go

Callbacks are compared with `==`, so they are values of a type with decidable equality; the options are
stored and never used, so their type is a parameter.
-/

namespace Memar.Event
open Memar

variable {Cb Opt Ev : Type} [DecidableEq Cb]

/-- event/target.go:19-22 -/
structure Listener (Cb Opt : Type) where
  eventListener : Cb
  options : Opt
deriving DecidableEq, Repr

/-- event/target.go:25-28: an empty slice (its capacity is not modelled). -/
def init : List (Listener Cb Opt) := []

/-- event/target.go:43-46 -/
def add (ls : List (Listener Cb Opt)) (callback : Cb) (options : Opt) : List (Listener Cb Opt) :=
  ls ++ [⟨callback, options⟩]

/-- event/target.go:54-62: the loop from index `i`; `copy` over the slice itself moves the tail. -/
def removeLoop (dls : List (Listener Cb Opt)) (callback : Cb) (i : Nat) : Nat → List (Listener Cb Opt)
  | 0 => dls
  | fuel + 1 =>
    if h : i < dls.length then
      if dls[i].eventListener = callback then
        (dls.take i ++ goCopy (dls.drop i) (dls.drop (i + 1))).take (dls.length - 1)
      else removeLoop dls callback (i + 1) fuel
    else dls

/-- event/target.go:50-65 -/
def remove (ls : List (Listener Cb Opt)) (callback : Cb) : List (Listener Cb Opt) :=
  removeLoop ls callback 0 ls.length

/-- event/target.go:33-37: the callbacks called, in order. -/
def dispatch (ls : List (Listener Cb Opt)) : List Cb := ls.map (·.eventListener)

/-- A call on the target. -/
inductive Op (Cb Opt Ev : Type)
  | add (callback : Cb) (options : Opt)
  | remove (callback : Cb)
  | dispatch (event : Ev)

/-- The effect of a call on the listeners. -/
def Op.apply (ls : List (Listener Cb Opt)) : Op Cb Opt Ev → List (Listener Cb Opt)
  | .add c o => Event.add ls c o
  | .remove c => Event.remove ls c
  | .dispatch _ => ls

/-- The listeners after a history of calls on a new target. -/
def run (h : List (Op Cb Opt Ev)) : List (Listener Cb Opt) := h.foldl Op.apply init

/-! ## Goroutines -/

/-- What a goroutine is doing, innermost first. -/
inductive Frame (Cb Opt Ev : Type)
  /-- about to make these calls, one after the other -/
  | prog (ops : List (Op Cb Opt Ev))
  /-- holding the lock, before the effect of the call (between Lock and the body) -/
  | body (op : Op Cb Opt Ev)
  /-- event/target.go:34-37 holding the lock, with the listeners still to be called -/
  | calling (event : Ev) (todo : List (Listener Cb Opt))

/-- The target and its goroutines. -/
structure Sys (Cb Opt Ev : Type) where
  /-- event/target.go:15: which goroutine holds the mutex -/
  lock : Option Nat
  /-- event/target.go:16 -/
  ls : List (Listener Cb Opt)
  /-- the callbacks called so far, with their events -/
  trace : List (Cb × Ev)
  threads : Nat → List (Frame Cb Opt Ev)

/-- Replace the stack of one goroutine. -/
def setThread (ts : Nat → List (Frame Cb Opt Ev)) (t : Nat) (k : List (Frame Cb Opt Ev)) :
    Nat → List (Frame Cb Opt Ev) := fun u => if u = t then k else ts u

/-- One step of goroutine `t`; `none` when it cannot move.  `handler c` are the calls that callback
`c` makes on this same target (event/target.go:32-64; the mutex is not reentrant). -/
def step (handler : Cb → List (Op Cb Opt Ev)) (t : Nat) (s : Sys Cb Opt Ev) : Option (Sys Cb Opt Ev) :=
  match s.threads t with
  | [] => none
  | .prog [] :: k => some { s with threads := setThread s.threads t k }
  | .prog (op :: rest) :: k =>
    if s.lock = none then
      some { s with lock := some t, threads := setThread s.threads t (.body op :: .prog rest :: k) }
    else none
  | .body (.add c o) :: k =>
    some { s with lock := none, ls := add s.ls c o, threads := setThread s.threads t k }
  | .body (.remove c) :: k =>
    some { s with lock := none, ls := remove s.ls c, threads := setThread s.threads t k }
  | .body (.dispatch e) :: k =>
    some { s with threads := setThread s.threads t (.calling e s.ls :: k) }
  | .calling e (l :: todo) :: k =>
    some { s with
      trace := s.trace ++ [(l.eventListener, e)]
      threads := setThread s.threads t (.prog (handler l.eventListener) :: .calling e todo :: k) }
  | .calling _ [] :: k => some { s with lock := none, threads := setThread s.threads t k }

/-- A new target with goroutines about to make the calls `progs`. -/
def start (progs : Nat → List (Op Cb Opt Ev)) : Sys Cb Opt Ev :=
  ⟨none, init, [], fun t => [.prog (progs t)]⟩

/-- The states a schedule leads to: the goroutine that moves is named at each step. -/
def exec (handler : Cb → List (Op Cb Opt Ev)) : List Nat → Sys Cb Opt Ev → Option (Sys Cb Opt Ev)
  | [], s => some s
  | t :: ts, s => (step handler t s).bind (exec handler ts)

end Memar.Event
