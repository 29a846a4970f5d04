import Verif.Base

/-!
# Logging and recovery from panics: log/*.go

Data types (the `domain` of an event) are values of a type `D`; texts are their bytes. What a type switch can find out about a recovered value is
given by what its methods return. Listeners are values of a type `L`.
-/

namespace Memar.Log
open Memar

/-- log/protocol/level.go:12-79: one bit for each level; `iota` counts the specifications of the group, blank ones too. -/
inductive Level
  | information | notice | error | debug | deepDebug | warning | alert | critical | emergency | fatal | security | confidential
deriving DecidableEq, Repr

/-- log/protocol/level.go:22 `1 << iota`: the index of the specification in the group. -/
def Level.iota : Level → Nat
  | .information => 2 | .notice => 4 | .error => 6 | .debug => 8 | .deepDebug => 10 | .warning => 12
  | .alert => 14 | .critical => 16 | .emergency => 18 | .fatal => 20 | .security => 22 | .confidential => 24

/-- log/protocol/level.go:22 the value of a level. -/
def Level.bits (l : Level) : U32 := 1#32 <<< l.iota

/-- log/event.go:14-20 `Event`, with the fields of event/event.go:11-14. -/
structure Event (D : Type) where
  domain : D
  time : Int
  level : U32
  message : Bytes
  stack : Bytes
deriving DecidableEq, Repr

/-- log/event.go:23-28 `Init`; `now` is `unix.Now()`. -/
def Event.init {D : Type} (now : Int) (dt : D) (level : U32) (message stack : Bytes) : Event D := ⟨dt, now, level, message, stack⟩

/-- log/event-utf8.go:22-29 `Event_UTF8.Init`; `trace` is `debug.Stack()`. -/
def Event.initUtf8 {D : Type} (now : Int) (trace : Bytes) (dt : D) (level : U32) (message : Bytes) (stack : Bool) : Event D :=
  Event.init now dt level message (if stack then trace else [])

/-- A value that was panicked with, as the type switch of log/panic_handler.go:19-56 sees it: for each case whether the value has the methods
(`none` if not) and what they return (`none` inside if they panic themselves, as those of a nil pointer do). -/
structure Val (D : Type) where
  /-- `*Event`; inside, `none` is a nil pointer -/
  own : Option (Option (Event D))
  /-- `log_p.Event`: domain, level, message and stack; the time is in the event too -/
  event : Option (Option (Event D))
  /-- `log_p.Event_Message` -/
  message : Option (Option Bytes)
  /-- `protocol.Error`: the error as a data type, and its `DataTypeID_string` -/
  err : Option (Option (D × Bytes))
  /-- `error` -/
  goError : Option (Option Bytes)
  /-- `string` -/
  str : Option Bytes
  /-- `string_p.Stringer_To`; its error is not looked at -/
  toStr : Option (Option Bytes)
  /-- `fmt.Stringer` -/
  stringer : Option (Option Bytes)
  /-- what `fmt.Sprint` makes of it; `fmt` recovers from panics of methods -/
  sprint : Bytes
deriving DecidableEq, Repr

/-- log/panic_handler.go:18-57 the event made for a recovered value: `none` if making it panics; inside, `none` is a nil pointer. `dt` is log.DT. -/
def panicEvent {D : Type} (dt : D) (now : Int) (trace : Bytes) (v : Val D) : Option (Option (Event D)) :=
  match v.own with
  | some e => some e
  | none =>
    match v.event with
    | some e => e.map fun e => some (Event.init now e.domain e.level e.message e.stack)
    | none =>
      match v.message with
      | some m => m.map fun m => some { Event.initUtf8 now trace dt Level.error.bits [] true with message := m }
      | none =>
        match v.err with
        | some x => x.map fun x => some (Event.initUtf8 now trace x.1 Level.error.bits x.2 true)
        | none =>
          match v.goError with
          | some m => m.map fun m => some (Event.initUtf8 now trace dt Level.error.bits m true)
          | none =>
            match v.str with
            | some m => some (some (Event.initUtf8 now trace dt Level.error.bits m true))
            | none =>
              match v.toStr with
              | some m => m.map fun m => some { Event.initUtf8 now trace dt Level.error.bits [] true with message := m }
              | none =>
                match v.stringer with
                | some m => m.map fun m => some (Event.initUtf8 now trace dt Level.error.bits m true)
                | none => some (some (Event.initUtf8 now trace dt Level.error.bits v.sprint true))

/-- log/log.go:11 the global logger: its mutex and listeners (event/target.go:14-17), and the calls of listeners so far. -/
structure Logger (D L : Type) where
  locked : Bool
  ls : List L
  calls : List (L × Option (Event D))
deriving DecidableEq, Repr

/-- How a call ends: by returning, by a panic, or not at all (it waits for a mutex that nobody will unlock). -/
inductive End
  | returned | panicked | blocked
deriving DecidableEq, Repr

/-- event/target.go:34-37 the loop over the listeners; `panics` says which listeners panic on which events. -/
def callAll {D L : Type} (panics : L → Option (Event D) → Bool) (e : Option (Event D)) : List L → List (L × Option (Event D)) × End
  | [] => ([], .returned)
  | l :: ls =>
    if panics l e then ([(l, e)], .panicked)
    else
      let r := callAll panics e ls
      ((l, e) :: r.1, r.2)

/-- event/target.go:31-40 `DispatchEvent` when no other goroutine is in it: the mutex is unlocked at the end, not by a deferred call. -/
def dispatch {D L : Type} (panics : L → Option (Event D) → Bool) (s : Logger D L) (e : Option (Event D)) : Logger D L × End :=
  if s.locked then (s, .blocked)
  else
    let r := callAll panics e s.ls
    match r.2 with
    | .returned => ({ s with locked := false, calls := s.calls ++ r.1 }, .returned)
    | x => ({ s with locked := true, calls := s.calls ++ r.1 }, x)

/-- log/panic_handler.go:15-60 `PanicHandler`; `r` is what `recover` returns. -/
def panicHandler {D L : Type} (panics : L → Option (Event D) → Bool) (dt : D) (now : Int) (trace : Bytes) (s : Logger D L) :
    Option (Val D) → Logger D L × End
  | none => (s, .returned)
  | some v =>
    match panicEvent dt now trace v with
    | some e => dispatch panics s e
    | none => (s, .panicked)

/-- log/log-helpers.go: the functions that log a text. -/
inductive Helper
  | trace (level : U32) | info | notice | error | debug | deepDebug | warn | fatal | conf
deriving DecidableEq, Repr

/-- log/log-helpers.go:14-74: the level and whether the stack is taken. -/
def Helper.args : Helper → U32 × Bool
  | .trace l => (l, true)
  | .info => (Level.information.bits, false)
  | .notice => (Level.notice.bits, false)
  | .error => (Level.error.bits, true)
  | .debug => (Level.debug.bits, false)
  | .deepDebug => (Level.deepDebug.bits, true)
  | .warn => (Level.warning.bits, false)
  | .fatal => (Level.fatal.bits, true)
  | .conf => (Level.confidential.bits, false)

/-- log/log-helpers.go:14-74: each makes an event and dispatches it. -/
def Helper.log {D L : Type} (panics : L → Option (Event D) → Bool) (now : Int) (trace : Bytes) (s : Logger D L) (h : Helper) (dt : D) (message : Bytes) :
    Logger D L × End :=
  dispatch panics s (some (Event.initUtf8 now trace dt h.args.1 message h.args.2))

/-- log/util.go:24-29 `FatalError`: the value panicked with, if any. -/
def fatalError {D : Type} (err : Option (Val D)) : Option (Val D) :=
  match err with
  | none => none
  | some e => some e

/-- What happens to the logger: a text is logged, or a panic is recovered from. -/
inductive Act (D : Type)
  | log (h : Helper) (dt : D) (message : Bytes)
  | recover (v : Option (Val D))

/-- One of them. -/
def act {D L : Type} (panics : L → Option (Event D) → Bool) (dt : D) (now : Int) (trace : Bytes) (s : Logger D L) : Act D → Logger D L × End
  | .log h d m => h.log panics now trace s d m
  | .recover v => panicHandler panics dt now trace s v

/-- Several, each at its time and with its stack. -/
def acts {D L : Type} (panics : L → Option (Event D) → Bool) (dt : D) (s : Logger D L) : List (Int × Bytes × Act D) → Logger D L
  | [] => s
  | a :: as => acts panics dt (act panics dt a.1 a.2.1 s a.2.2).1 as

end Memar.Log
