import Verif.Registry.Model

/-!
# C131: errors of the framework and Go errors
-/

namespace Memar.Error
open Memar Memar.Registry.ErrorValue

/-- A value of Go's `error` interface that is not nil: one of the framework's errors, or another one with its text. -/
inductive GoError where
  | framework (e : Registry.ErrorValue.Error)
  | text (msg : Bytes)
  deriving DecidableEq, Repr

/-- The promoted method `Summary` of the embedded error. -/
def summary : Registry.ErrorValue.Error → Bytes
  | .base _ _ s => s
  | .chain e _ => summary e

/-- The text Go code sees (`Error()`); how a framework error prints itself is left out. -/
def GoError.msg : GoError → Option Bytes
  | .text m => some m
  | .framework _ => none

/-- error/util.go:9-17 `ToGoError`; nil is `none` -/
def toGoError : Option Registry.ErrorValue.Error → Option GoError
  | none => none
  | some e => some (.text (summary e))

/-- error/util.go:26-38 `ToError`: the outer `none` is the panic of the type assertion (without the second result) -/
def toError : Option GoError → Option (Option Registry.ErrorValue.Error)
  | none => some none
  | some (.framework e) => some (some e)
  | some (.text _) => none

/-- **C131**: no error stays no error, both ways; a framework error handed around as a Go error comes back as itself; the Go error made
from an error carries its summary. Not covered: converting there and back, refuted below.
Missing: converting an error there and back (refuted: `C131_back_violated`,
`C131_identity_violated`). -/
theorem C131_convert_partial (e : Registry.ErrorValue.Error) :
    toGoError none = none ∧ toError none = some none ∧ toError (some (.framework e)) = some (some e) ∧
      (toGoError (some e)).bind GoError.msg = some (summary e) := ⟨rfl, rfl, rfl, rfl⟩

/-- C131 violated: an error converted to a Go error cannot be converted back: for every error that panics. So does every error of the standard
library. -/
theorem C131_back_violated (e : Registry.ErrorValue.Error) (msg : Bytes) :
    toError (toGoError (some e)) = none ∧ toError (some (.text msg)) = none := ⟨rfl, rfl⟩

/-- C131 violated: two errors that are not equal give the same Go error when their summaries agree. -/
theorem C131_identity_violated (m m' : Bytes) (i i' : BitVec 64) (s : Bytes) (h : m ≠ m') :
    toGoError (some (.base m i s)) = toGoError (some (.base m' i' s)) ∧
      isEqual (some (.base m i s)) (some (.base m' i' s)) = false := by
  refine ⟨rfl, ?_⟩
  simp [isEqual, Error.mediaType, h]

example : summary (.chain (.base (bs "a") 1 (bs "s")) (.base (bs "b") 2 (bs "t"))) = bs "s" := by decide

end Memar.Error
