import Verif.Base

/-!
# C157: internal, temporary and timeout errors (`error/error-type.go`, `error/chain-error.go`)

An error may have methods `Internal`, `Temporary` and `Timeout`, or not: `none`.  A `ChainError` embeds an `Error`, whose interface
has none of the three, so that none of them is promoted.
-/

namespace Memar.ErrorKind
open Memar

/-- The three behaviours an error can have. -/
inductive Kind where | internal | temporary | timeout
deriving DecidableEq, Repr

/-- error/chain-error.go:30-33: an error with the answers of its methods, or a wrapped one. -/
inductive Err where
  | base (answer : Kind → Option Bool)
  | chain (err past : Err)

/-- Does the error have the method of the kind, and what does it answer: a type assertion to `error_p.Internal`, `error_p.Temporary`
or `error_p.Timeout`. -/
def Err.method : Err → Kind → Option Bool
  | .base f, k => f k
  | .chain _ _, _ => none

/-- error/error-type.go:10-13 `IsInternal`, error/error-type.go:16-19 `IsTemporary` and error/error-type.go:22-25 `IsTimeout`; a
nil error is `none`. -/
def isKind (k : Kind) : Option Err → Bool
  | none => false
  | some e => match e.method k with
    | some b => b
    | none => false

/-- error/chain-error.go:19-27 `NewChain`; nil is `none`, and an interface that holds the nil pointer has none of the methods either. -/
def newChain (err chain : Option Err) : Option Err :=
  match err, chain with
  | some e, some c => some (.chain e c)
  | _, _ => none

/-- **C157** (partial: for errors that were not wrapped): an error is internal, temporary or a timeout exactly when it says so; no
error is none of them.
Missing: wrapped errors (refuted: `C157_wrapped_violated`). -/
theorem C157_kind_partial (k : Kind) (f : Kind → Option Bool) :
    (isKind k (some (.base f)) = true ↔ f k = some true) ∧ isKind k none = false := by
  refine ⟨?_, rfl⟩
  unfold isKind Err.method
  dsimp only
  cases h : f k with
  | none => simp
  | some b => simp

/-- **C157** violated for wrapped errors: an error wrapped with another one is not internal, temporary or a timeout any more, whatever
both of them were. -/
theorem C157_wrapped_violated (k : Kind) (err chain : Option Err) : isKind k (newChain err chain) = false := by
  cases err <;> cases chain <;> rfl

/- A timeout that is wrapped. -/
example : let e : Err := .base fun k => if k = .timeout then some true else none
    isKind .timeout (some e) = true ∧ isKind .internal (some e) = false ∧ isKind .timeout (newChain (some e) (some e)) = false := by
  decide

end Memar.ErrorKind
