import Verif.Log.Props

/-!
# The functions that make log events without dispatching them: log/event-helpers.go, log/util.go (C137)
-/

namespace Memar.Log
open Memar

/-- log/event-helpers.go: the functions that make an event. -/
inductive Maker
  | new (level : U32) | notice | error | debug | deepDebug | info | warn | fatal | conf
deriving DecidableEq, Repr

/-- log/event-helpers.go:11-66: the level each gives. -/
def Maker.level : Maker → U32
  | .new l => l
  | .notice => Level.notice.bits
  | .error => Level.error.bits
  | .debug => Level.debug.bits
  | .deepDebug => Level.deepDebug.bits
  | .info => Level.information.bits
  | .warn => Level.warning.bits
  | .fatal => Level.fatal.bits
  | .conf => Level.confidential.bits

/-- log/event-helpers.go:11-66 -/
def Maker.make {D : Type} (now : Int) (m : Maker) (dt : D) (message stack : Bytes) : Event D := Event.init now dt m.level message stack

/-- log/util.go:11-19 `CallerInfo`; `caller` is `runtime.Caller`: file and line, if it knows them. -/
def callerInfo (caller : Int → Option (Bytes × Int)) (depth : Int) : Bytes × Int :=
  match caller depth with
  | some r => r
  | none => (bs "?", 0)

/-- The function that logs at the level a maker gives. -/
def Maker.helper : Maker → Helper
  | .new l => .trace l | .notice => .notice | .error => .error | .debug => .debug | .deepDebug => .deepDebug
  | .info => .info | .warn => .warn | .fatal => .fatal | .conf => .conf

/-- C137: an event that is made has the domain, text, stack and time given, and the level its function is named after, which is the level the logging function
of that name logs with; the ready-made levels are all different. -/
theorem C137_make {D : Type} (now : Int) (m : Maker) (dt : D) (message stack : Bytes) :
    (∃ lv, m.make now dt message stack = ⟨dt, now, lv, message, stack⟩ ∧ lv = m.helper.args.1 ∧
      (match m with
        | .new l => lv = l | .notice => lv = 16 | .error => lv = 64 | .debug => lv = 256 | .deepDebug => lv = 1024
        | .info => lv = 4 | .warn => lv = 4096 | .fatal => lv = 1048576 | .conf => lv = 16777216)) ∧
    ∀ m', (∀ l, m ≠ .new l) → (∀ l, m' ≠ .new l) → m.level = m'.level → m = m' := by
  refine ⟨⟨_, rfl, ?_, ?_⟩, ?_⟩
  · cases m <;> rfl
  · cases m <;> rfl
  · intro m' h h' e
    cases m <;> cases m' <;> first
      | rfl
      | exact absurd rfl (h _)
      | exact absurd rfl (h' _)
      | (revert e; simp only [Maker.level]; decide)

/-- C137: the place of a call is what the run time knows, and `?` with line zero where it knows nothing. -/
theorem C137_caller (caller : Int → Option (Bytes × Int)) (depth : Int) :
    (∀ r, caller depth = some r → callerInfo caller depth = r) ∧ (caller depth = none → callerInfo caller depth = (bs "?", 0)) :=
  ⟨fun r h => by rw [callerInfo, h], fun h => by rw [callerInfo, h]⟩

example : (Maker.warn.make 5 () (bs "m") []).level = 4096 := by decide

end Memar.Log
