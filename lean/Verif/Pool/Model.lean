import Verif.Base

/-!
# Model of the LIFO object pool (`pool/lifo.go`, `pool/status.go`)

An item is a natural number (its identity); Go's `nil` interface is `none`.  The pool is shared by
any number of users, the goroutine started by `Init` that runs `Clean`, and one caller of `Close`.
Each lock-protected region and each atomic operation is one step; a schedule is a list of actions.

Simplifications: `itemsCount` is a mathematical integer (it would need 2^63 operations to wrap);
`New` returns an object that did not exist before; `CloseFunc` only records that it was called;
`Close`'s loop over the idle items is one step because it holds the lock throughout; sleeping is
not modelled (the cleaner may wake up at any time).  A user puts back only what that user holds
(or nil).  `log` is a ghost record of what callers and callbacks can observe.
-/

namespace Memar.Pool

/-- pool/status.go:5-12 -/
inductive Status
  | unset
  | running
  | stopping
  | stopped
deriving DecidableEq, Repr

/-- What can be observed from outside the pool. -/
inductive Event
  /-- `New` created the item. -/
  | created (x : Nat)
  /-- A `Get` of user `i` returned; `none` is nil. -/
  | got (i : Nat) (x : Option Nat)
  /-- User `i` called `Put`. -/
  | gave (i : Nat) (x : Option Nat)
  /-- `CloseFunc` was called. -/
  | closed (x : Option Nat)
deriving DecidableEq, Repr

/-- The shared fields, pool/lifo.go:17-36. -/
structure LIFO where
  maxItems : Int
  /-- `New` is set -/
  hasNew : Bool
  itemsCount : Int
  hotItem : Option Nat
  idleItems : List (Option Nat)
  victimItems : List (Option Nat)
  state : Status
deriving Repr

/-- Go `make([]interface{}, p.MaxItems/4)`: nil slots; Go's `/` truncates and a negative length
panics (excluded by the hypotheses of the theorems). -/
def freshIdle (p : LIFO) : List (Option Nat) := List.replicate (p.maxItems.tdiv 4).toNat none

/-- pool/lifo.go:38-48 `Init`: panics when the pool was used before. -/
def init (p : LIFO) : Option LIFO :=
  if p.state ≠ .unset then none
  else if p.maxItems.tdiv 4 < 0 then none
  else some { p with state := .running, idleItems := freshIdle p }

/-- pool/lifo.go:124-130 -/
def isStop (p : LIFO) : Bool := p.state = .stopping || p.state = .stopped

/-- pool/lifo.go:54-59 -/
def len (p : LIFO) : Nat := p.idleItems.length + p.victimItems.length

/-- pool/lifo.go:132-152 -/
def popHead (p : LIFO) : Option Nat × LIFO :=
  match p.hotItem with
  | some x => (some x, { p with hotItem := none })
  | none =>
    match p.idleItems.getLast? with
    | some x => (x, { p with idleItems := p.idleItems.dropLast })
    | none =>
      match p.victimItems.getLast? with
      | some x => (x, { p with victimItems := p.victimItems.dropLast })
      | none => (none, p)

/-- pool/lifo.go:154-162 -/
def pushHead (p : LIFO) (item : Option Nat) : LIFO :=
  match p.hotItem with
  | none => { p with hotItem := item }
  | some _ => { p with idleItems := p.idleItems ++ [item] }

/-- Where a user is inside `Get` or `Put`. -/
inductive Pc
  /-- outside the pool -/
  | out
  /-- pool/lifo.go:66, the state was checked -/
  | getPop
  /-- pool/lifo.go:165, nothing was popped and `New` is set -/
  | getAdd
  /-- pool/lifo.go:166, after the atomic add that returned `ic` -/
  | getNew (ic : Int)
  /-- pool/lifo.go:79, the state was checked -/
  | putPush (x : Option Nat)
deriving DecidableEq, Repr

/-- A user: what is in its hands and where it is. -/
structure User where
  held : List Nat
  pc : Pc
deriving DecidableEq, Repr

/-- Where the cleaner goroutine is. -/
inductive CleanPc
  /-- pool/lifo.go:104 -/
  | sleep
  /-- pool/lifo.go:109, the state was checked -/
  | swap
  /-- pool/lifo.go:115, the old victims are local -/
  | sub (vi : List (Option Nat))
  /-- pool/lifo.go:118, still to be closed -/
  | close (vi : List (Option Nat))
  /-- pool/lifo.go:106 -/
  | done
deriving DecidableEq, Repr

/-- Where the caller of `Close` is. -/
inductive ClosePc
  | notYet
  /-- pool/lifo.go:88, after the state was swapped -/
  | lock
  /-- pool/lifo.go:97 -/
  | finish
  | done
deriving DecidableEq, Repr

/-- The pool, everybody using it, the number of objects created so far and the ghost log
(oldest event first). -/
structure World where
  p : LIFO
  users : List User
  cleaner : CleanPc
  closer : ClosePc
  next : Nat
  log : List Event
deriving Repr

/-- The actions a scheduler can choose from. -/
inductive Action
  /-- user `i` calls `Get` -/
  | get (i : Nat)
  /-- user `i` calls `Put(x)` -/
  | put (i : Nat) (x : Option Nat)
  /-- user `i` takes the next step of its call -/
  | step (i : Nat)
  /-- the cleaner takes its next step -/
  | clean
  /-- the caller of `Close` takes its next step -/
  | close
deriving DecidableEq, Repr

/-- What user holding `held` holds after `Get` returned `x`. -/
def take (held : List Nat) : Option Nat → List Nat
  | none => held
  | some x => x :: held

/-- What is left after calling `Put(x)`. -/
def give (held : List Nat) : Option Nat → List Nat
  | none => held
  | some x => held.erase x

/-- User `i`, at `u`, calls `Get` (pool/lifo.go:61-64). -/
def startGet (w : World) (i : Nat) (u : User) : World :=
  if isStop w.p then { w with log := w.log ++ [.got i none] }
  else { w with users := w.users.set i ⟨u.held, .getPop⟩ }

/-- User `i`, at `u`, calls `Put(x)` (pool/lifo.go:73-77). -/
def startPut (w : World) (i : Nat) (u : User) (x : Option Nat) : World :=
  if isStop w.p then
    { w with users := w.users.set i ⟨give u.held x, .out⟩, log := w.log ++ [.gave i x, .closed x] }
  else
    { w with users := w.users.set i ⟨give u.held x, .putPush x⟩, log := w.log ++ [.gave i x] }

/-- The next step of user `i`, at `u`, inside `Get` (pool/lifo.go:66-71, 164-172) or `Put`
(pool/lifo.go:79). -/
def userStep (w : World) (i : Nat) (u : User) : World :=
  match u.pc with
  | .out => w
  | .getPop =>
    match popHead w.p with
    | (some x, p') =>
      { w with p := p', users := w.users.set i ⟨take u.held (some x), .out⟩
               log := w.log ++ [.got i (some x)] }
    | (none, p') =>
      if w.p.hasNew then { w with p := p', users := w.users.set i ⟨u.held, .getAdd⟩ }
      else { w with p := p', users := w.users.set i ⟨u.held, .out⟩
                    log := w.log ++ [.got i none] }
  | .getAdd =>
    { w with p := { w.p with itemsCount := w.p.itemsCount + 1 }
             users := w.users.set i ⟨u.held, .getNew (w.p.itemsCount + 1)⟩ }
  | .getNew ic =>
    if ic ≤ w.p.maxItems then
      { w with users := w.users.set i ⟨take u.held (some w.next), .out⟩, next := w.next + 1
               log := w.log ++ [.created w.next, .got i (some w.next)] }
    else
      { w with p := { w.p with itemsCount := w.p.itemsCount - 1 }
               users := w.users.set i ⟨u.held, .out⟩, log := w.log ++ [.got i none] }
  | .putPush x =>
    { w with p := pushHead w.p x, users := w.users.set i ⟨u.held, .out⟩ }

/-- One step of the cleaner, pool/lifo.go:102-122. -/
def cleanStep (w : World) : World :=
  match w.cleaner with
  | .sleep => if isStop w.p then { w with cleaner := .done } else { w with cleaner := .swap }
  | .swap =>
    { w with p := { w.p with victimItems := w.p.idleItems, idleItems := freshIdle w.p }
             cleaner := .sub w.p.victimItems }
  | .sub vi =>
    { w with p := { w.p with itemsCount := w.p.itemsCount - vi.length }, cleaner := .close vi }
  | .close [] => { w with cleaner := .sleep }
  | .close (x :: vi) => { w with cleaner := .close vi, log := w.log ++ [.closed x] }
  | .done => w

/-- The non-nil items of a slice, closed in order by pool/lifo.go:89-94. -/
def closeAll (l : List (Option Nat)) : List Event :=
  (l.filter Option.isSome).map .closed

/-- One step of the caller of `Close`, pool/lifo.go:82-98; it runs once (a second call panics). -/
def closeStep (w : World) : World :=
  match w.closer with
  | .notYet =>
    if w.p.state = .running then
      { w with p := { w.p with state := .stopping }, closer := .lock }
    else w
  | .lock => { w with closer := .finish, log := w.log ++ closeAll w.p.idleItems }
  | .finish => { w with p := { w.p with state := .stopped }, closer := .done }
  | .done => w

/-- One action; an action that is not possible changes nothing. -/
def step (w : World) : Action → World
  | .get i =>
    match w.users[i]? with
    | some u => if u.pc = .out then startGet w i u else w
    | none => w
  | .put i x =>
    match w.users[i]? with
    | some u =>
      if u.pc = .out ∧ (∀ y, x = some y → y ∈ u.held) then startPut w i u x else w
    | none => w
  | .step i =>
    match w.users[i]? with
    | some u => userStep w i u
    | none => w
  | .clean => cleanStep w
  | .close => closeStep w

/-- A whole schedule. -/
def run (w : World) (as : List Action) : World := as.foldl step w

/-- A freshly initialised pool with `n` users and the cleaner asleep. -/
def World.start (p : LIFO) (n : Nat) : World :=
  ⟨p, List.replicate n ⟨[], .out⟩, .sleep, .notYet, 0, []⟩

/-- The pool as declared by a user (pool/lifo.go:17-36): limit, `New` set or not, everything else
at its zero value. -/
def declared (maxItems : Int) (hasNew : Bool) : LIFO := ⟨maxItems, hasNew, 0, none, [], [], .unset⟩

end Memar.Pool
