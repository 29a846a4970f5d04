import Verif.Base

/-!
# Model of the application's life cycle and status: achaemenid/application.go, achaemenid/status.go, achaemenid/cryptography.go,
and of the status of a TCP stream: net/tcp/stream-status.go

Log lines are left out. `changeState` holds a lock, so it is one step. A listener is a channel with a capacity and the
values waiting in it, and the number of receivers waiting on it at that moment; nil channels are capacity 0 with no receiver.
-/

namespace Memar.App

/-- The values of `protocol.ApplicationStatus` that the code names. -/
inductive AStatus where
  | unset
  | starting
  | running
  | stopping
  deriving DecidableEq, Repr

/-- A channel of statuses. `got` collects what waiting receivers took. -/
structure Chan (α : Type) where
  cap : Nat
  queue : List α
  waiting : Nat
  got : List α
  deriving DecidableEq, Repr

/-- `select { case ch <- v: default: }` (achaemenid/status.go:32-35, net/tcp/stream-status.go:77-82): a waiting receiver takes
the value, or it waits in the buffer if there is room, or it is dropped. -/
def Chan.trySend {α : Type} (c : Chan α) (v : α) : Chan α :=
  if 0 < c.waiting then { c with waiting := c.waiting - 1, got := c.got ++ [v] }
  else if c.queue.length < c.cap then { c with queue := c.queue ++ [v] }
  else c

/-- `status` (achaemenid/status.go:10-14) inside `app` (achaemenid/application.go:19-30). -/
structure App where
  status : AStatus
  listeners : List (Chan AStatus)
  deriving DecidableEq, Repr

/-- The zero application. -/
def App.zero : App := ⟨.unset, []⟩

/-- achaemenid/status.go:17-19: `NotifyStatus`. -/
def App.notifyStatus (a : App) (c : Chan AStatus) : App := { a with listeners := a.listeners ++ [c] }

/-- achaemenid/status.go:26-37: `changeState`. -/
def App.changeState (a : App) (s : AStatus) : App := ⟨s, a.listeners.map (·.trySend s)⟩

/-- What the parts of the application answer: the error (`none` is nil) of `EventTarget.Init`, `Cryptography.init`,
`PacketListener.Init`, `Cryptography.Deinit`, `PacketListener.Deinit`. -/
structure Parts where
  eventInit : Option Nat
  cryptoInit : Option Nat
  listenerInit : Option Nat
  cryptoDeinit : Option Nat
  listenerDeinit : Option Nat
  deriving DecidableEq, Repr

/-- The parts that have been started or stopped, in order. -/
inductive Step where
  | eventInit
  | manifestInit
  | cryptoInit
  | listenerInit
  | cryptoDeinit
  | listenerDeinit
  deriving DecidableEq, Repr

/-- achaemenid/application.go:39-58: `Init`: the application, the error, and the steps made. -/
def App.init (a : App) (p : Parts) : App × Option Nat × List Step :=
  let a1 := a.changeState .starting
  match p.eventInit with
  | some e => (a1, some e, [.eventInit])
  | none => (a1, p.listenerInit, [.eventInit, .manifestInit, .cryptoInit, .listenerInit])

/-- achaemenid/application.go:61-63: `Reinit` does nothing; 108-114: `Upgrade` only calls it. -/
def App.reinit (a : App) : App := a

/-- achaemenid/application.go:66-84: `Deinit`. -/
def App.deinit (a : App) (p : Parts) : App × Option Nat × List Step :=
  let a1 := (a.changeState .stopping).changeState .stopping
  match p.cryptoDeinit with
  | some e => (a1, some e, [.cryptoDeinit])
  | none => (a1, p.listenerDeinit, [.cryptoDeinit, .listenerDeinit])

/-- The values of `protocol.OS_Signal` that the code names. -/
inductive Signal where
  | interrupt
  | quit
  | terminated
  | killed
  | urgent
  | hangup
  | upgrade
  | other (n : Nat)
  deriving DecidableEq, Repr

/-- achaemenid/application.go:87-106: `OsSignalHandler`; `Deinit` runs in a goroutine of its own, taken here as run to its end;
the steps made are the second component. -/
def App.osSignal (a : App) (p : Parts) (s : Signal) : App × List Step :=
  match s with
  | .interrupt | .quit | .terminated | .killed =>
    if a.status = .running then ((a.deinit p).1, (a.deinit p).2.2) else (a, [])
  | .urgent => (a, [])
  | .hangup => (a.reinit, [])
  | .upgrade => (a.reinit, [])
  | .other _ => (a, [])

/-- What can happen to an application. -/
inductive Ev where
  | init (p : Parts)
  | reinit
  | notify (c : Chan AStatus)
  | signal (p : Parts) (s : Signal)
  deriving DecidableEq, Repr

/-- One event. -/
def App.ev (a : App) : Ev → App
  | .init p => (a.init p).1
  | .reinit => a.reinit
  | .notify c => a.notifyStatus c
  | .signal p s => (a.osSignal p s).1

/-- `streamStatus` (net/tcp/stream-status.go:12-46): the number of the state. -/
abbrev SStatus := Nat

/-- `status` (net/tcp/stream-status.go:48-51). -/
structure Stream where
  ss : SStatus
  chan : Chan SStatus
  deriving DecidableEq, Repr

/-- net/tcp/stream-status.go:54-59: `Init`: the channel has no buffer. -/
def Stream.init (_s : Stream) (is : SStatus) : Stream := ⟨is, ⟨0, [], 0, []⟩⟩

/-- net/tcp/stream-status.go:61-63: `Load`. -/
def Stream.load (s : Stream) : SStatus := s.ss

/-- net/tcp/stream-status.go:64-67 and 76-83: `Store`. -/
def Stream.store (s : Stream) (v : SStatus) : Stream := ⟨v, s.chan.trySend v⟩

/-- net/tcp/stream-status.go:68-74: `CompareAndSwap`. -/
def Stream.cas (s : Stream) (old new : SStatus) : Stream × Bool :=
  if s.ss = old then (⟨new, s.chan.trySend new⟩, true) else (s, false)

/-- A goroutine begins to wait on the channel. -/
def Stream.wait (s : Stream) : Stream := { s with chan := { s.chan with waiting := s.chan.waiting + 1 } }

/-- What can happen to a stream's status. -/
inductive SOp where
  | store (v : SStatus)
  | cas (old new : SStatus)
  | wait
  deriving DecidableEq, Repr

/-- One operation. -/
def Stream.op (s : Stream) : SOp → Stream
  | .store v => s.store v
  | .cas o n => (s.cas o n).1
  | .wait => s.wait

end Memar.App
