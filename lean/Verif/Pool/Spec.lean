import Verif.Pool.Model

/-!
# What users of the object pool rely on

The statements speak about the log: what `Get` returned, what was given to `Put`, what `New`
created and what `CloseFunc` was called with, in the order in which it happened.
-/

namespace Memar.Pool

/-- `w` is reached by some schedule from a freshly initialised pool with limit `max`. -/
def Reaches (max : Int) (hasNew : Bool) (n : Nat) (as : List Action) (w : World) : Prop :=
  ∃ p, init (declared max hasNew) = some p ∧ w = run (World.start p n) as

/-- Between two `Get`s that return the same item, the first receiver gave it back. -/
def Exclusive (log : List Event) : Prop :=
  ∀ pre mid post i j x, log = pre ++ .got i (some x) :: (mid ++ .got j (some x) :: post) →
    .gave i (some x) ∈ mid

/-- Everything `Get` returns was created by `New` before. -/
def Sourced (log : List Event) : Prop :=
  ∀ pre post i x, log = pre ++ .got i (some x) :: post → .created x ∈ pre

/-- Nothing that was closed is handed out afterwards. -/
def NotAfterClose (log : List Event) : Prop :=
  ∀ pre mid post i x, log ≠ pre ++ .closed (some x) :: (mid ++ .got i (some x) :: post)

/-- No item is closed twice. -/
def ClosedOnce (log : List Event) : Prop :=
  ∀ pre mid post x, log ≠ pre ++ .closed (some x) :: (mid ++ .closed (some x) :: post)

def isCreated : Event → Bool
  | .created _ => true
  | _ => false

def isClosedItem : Event → Bool
  | .closed (some _) => true
  | _ => false

def isClosedNil : Event → Bool
  | .closed none => true
  | _ => false

/-- How many items `New` created. -/
def createdCount (log : List Event) : Nat := log.countP isCreated

/-- How many items were closed. -/
def closedCount (log : List Event) : Nat := log.countP isClosedItem

/-- How often `CloseFunc` was called with nil. -/
def closedNilCount (log : List Event) : Nat := log.countP isClosedNil

/-- A complete call of `Get` by user `i`, undisturbed (at most four steps). -/
def getCall (i : Nat) : List Action := [.get i, .step i, .step i, .step i]

/-- A complete call of `Put(x)` by user `i`, undisturbed. -/
def putCall (i : Nat) (x : Nat) : List Action := [.put i (some x), .step i]

/-- A complete call of `Close`, undisturbed. -/
def closeCall : List Action := [.close, .close, .close]

/-- One round of the cleaner over `k` victims. -/
def cleanCall (k : Nat) : List Action := List.replicate (4 + k) .clean

/-- No user ever puts nil. -/
def NoNilPut (as : List Action) : Prop := ∀ i, Action.put i none ∉ as

end Memar.Pool
