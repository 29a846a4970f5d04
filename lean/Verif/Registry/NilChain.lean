import Verif.Registry.Props

/-!
# C79: wrapping nil, as a Go program sees it

`NewChain` answers a pointer to a `ChainError`. In a variable or a result of the interface type `Error` a nil pointer is not nil: it is
an interface that holds a nil pointer. Here errors are values of the interface type.
-/

namespace Memar.Registry.ErrorValue
open Memar

/-- A value of the interface type `error_p.Error`: nil, an interface around a nil `*ChainError`, an error of the application, or a pointer
to a `ChainError` (error/chain-error.go:30-33) with the two errors it holds. -/
inductive Val
  | nil
  | nilChain
  | base (mediaType : Bytes) (dataTypeID : BitVec 64) (summary : Bytes)
  | chain (error past : Val)
deriving DecidableEq, Repr

/-- The method `MediaType`; a `ChainError` has that of the error it embeds, and `none` is the panic of a nil pointer. -/
def Val.mediaType : Val → Option Bytes
  | .nil => none
  | .nilChain => none
  | .base m _ _ => some m
  | .chain e _ => e.mediaType

/-- The method `DataTypeID`, likewise. -/
def Val.dataTypeID : Val → Option (BitVec 64)
  | .nil => none
  | .nilChain => none
  | .base _ i _ => some i
  | .chain e _ => e.dataTypeID

/-- error/error.go:11-22 `IsEqual`; `none` is a panic. -/
def isEqualV (base with_ : Val) : Option Bool :=
  if base = .nil ∧ with_ = .nil then some true
  else if base = .nil ∨ with_ = .nil then some false
  else base.mediaType.bind fun (m : Bytes) => with_.mediaType.bind fun (m' : Bytes) =>
    if m = m' then base.dataTypeID.bind fun (i : BitVec 64) => with_.dataTypeID.map fun (i' : BitVec 64) => i == i'
    else some false

/-- error/chain-error.go:19-27 `NewChain`: the pointer it answers, `none` when that is nil. -/
def newChainV (err chain : Val) : Option (Val × Val) :=
  if err = .nil ∨ chain = .nil then none else some (err, chain)

/-- The pointer that `NewChain` answers, used as an error (error/chain-error.go:19-27). -/
def asError : Option (Val × Val) → Val
  | none => .nilChain
  | some p => .chain p.1 p.2

/-- error/chain-error.go:10-16 `PastChain` with the method of error/chain-error.go:35-35; `none` is a panic. -/
def pastChainV : Val → Option Val
  | .nil => some .nil
  | .nilChain => none
  | .base _ _ _ => some .nil
  | .chain _ c => some c

/-- Specification: the value of the interface for an error that is there. -/
def Spec.value : Error → Val
  | .base m i s => .base m i s
  | .chain e c => .chain (value e) (value c)

/-- Specification: the value of the interface for an error that may be nil. -/
def Spec.optValue : Option Error → Val
  | none => .nil
  | some e => value e

theorem value_ne_nil (e : Error) : Spec.value e ≠ .nil := by cases e <;> simp [Spec.value]

theorem value_mediaType (e : Error) : (Spec.value e).mediaType = some e.mediaType := by
  induction e with
  | base => rfl
  | chain e c ih _ => exact ih

theorem value_dataTypeID (e : Error) : (Spec.value e).dataTypeID = some e.dataTypeID := by
  induction e with
  | base => rfl
  | chain e c ih _ => exact ih

/-- **C79**: of errors that are there, or are nil, comparing and asking for the past never panic, and give the answers of the theorems
above. -/
theorem C79_values (a b : Option Error) :
    isEqualV (Spec.optValue a) (Spec.optValue b) = some (isEqual a b) ∧ pastChainV (Spec.optValue a) = some (Spec.optValue (pastChain a)) := by
  constructor
  · cases a with
    | none => cases b with
      | none => rfl
      | some b => simp [isEqualV, Spec.optValue, value_ne_nil, isEqual]
    | some a => cases b with
      | none => simp [isEqualV, Spec.optValue, value_ne_nil, isEqual]
      | some b =>
        simp only [isEqualV, Spec.optValue, value_ne_nil, false_and, if_false, false_or, value_mediaType, value_dataTypeID,
          Option.bind_some, Option.map_some, isEqual]
        split
        · rename_i h; simp [h]
        · rename_i h; simp [h]
  · cases a with
    | none => rfl
    | some a => cases a <;> rfl

/-- **C79**: wrapping an error that is there with another one gives the wrapped error, whose past is the other one, and which is equal to
the first. -/
theorem C79_wrap_values (e c : Error) :
    asError (newChainV (Spec.value e) (Spec.value c)) = Spec.value (.chain e c) ∧
    pastChainV (asError (newChainV (Spec.value e) (Spec.value c))) = some (Spec.value c) ∧
    isEqualV (asError (newChainV (Spec.value e) (Spec.value c))) (Spec.value e) = some true := by
  have h : asError (newChainV (Spec.value e) (Spec.value c)) = Spec.value (.chain e c) := by
    simp [newChainV, value_ne_nil, asError, Spec.value]
  refine ⟨h, by rw [h]; rfl, ?_⟩
  rw [h]
  have := (C79_values (some (.chain e c)) (some e)).1
  simp only [Spec.optValue] at this
  rw [this]
  simp [isEqual, Error.mediaType, Error.dataTypeID]

/-- **C79** violated: wrapping nil, or with nil, gives nil. The pointer that comes back is nil, and used as an error it is not: the
comparison with nil says no, the comparison with any error panics, asking for the past panics, and wrapping it once more makes an error of
something where there was none. -/
theorem C79_wrapped_nil_violated (c : Val) :
    newChainV .nil c = none ∧ newChainV c .nil = none ∧
    asError (newChainV .nil c) ≠ .nil ∧ isEqualV (asError (newChainV .nil c)) .nil = some false ∧
    (∀ e, e ≠ .nil → isEqualV (asError (newChainV .nil c)) e = none) ∧ pastChainV (asError (newChainV .nil c)) = none ∧
    (c ≠ .nil → newChainV (asError (newChainV .nil c)) c = some (.nilChain, c)) := by
  refine ⟨by simp [newChainV], by simp [newChainV], by simp [newChainV, asError], by simp [newChainV, asError, isEqualV], ?_,
    by simp [newChainV, asError, pastChainV], ?_⟩
  · intro e he
    simp [newChainV, asError, isEqualV, he, Val.mediaType]
  · intro h
    simp [newChainV, asError, h]

example : newChainV (.base (bs "a/b") 3#64 []) (.base (bs "c/d") 4#64 []) = some (.base (bs "a/b") 3#64 [], .base (bs "c/d") 4#64 []) := by
  decide +kernel
example : isEqualV (.base (bs "a/b") 3#64 []) (.chain (.base (bs "a/b") 3#64 []) (.base (bs "c/d") 4#64 [])) = some true := by decide +kernel
example : isEqualV (.base (bs "a/b") 3#64 []) (.base (bs "a/b") 4#64 []) = some false := by decide +kernel
example : isEqualV (.base (bs "a/b") 3#64 []) (.base (bs "c/d") 3#64 []) = some false := by decide +kernel

end Memar.Registry.ErrorValue
