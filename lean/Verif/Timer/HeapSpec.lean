import Verif.Timer.Heap

/-!
# Specification vocabulary for the timer heap

Nothing here refers to the sift functions.
-/

namespace Memar.Timer

variable {τ : Type}

/-- Entry `k` may not be earlier than the entry at `(k - 1) / 4`, its parent. -/
def HeapOrder (l : List (Bucket τ)) : Prop :=
  ∀ (k : Nat) (b p : Bucket τ), 0 < k → l[k]? = some b → l[(k - 1) / 4]? = some p → p.when ≤ b.when

/-- No stored entry is earlier than `b`. -/
def Earliest (b : Bucket τ) (l : List (Bucket τ)) : Prop := ∀ c ∈ l, b.when ≤ c.when

/-- The operations the timing queue applies to its heap. -/
inductive Op (τ : Type) where
  /-- append an entry and sift it up -/
  | add (b : Bucket τ)
  /-- remove the entry at an index -/
  | del (i : Nat)
  /-- remove the first entry -/
  | pop

/-- One operation of the code; `none` if it panics. -/
def Op.run [DecidableEq τ] (l : List (Bucket τ)) : Op τ → Option (List (Bucket τ))
  | .add b => insert l b
  | .del i => (deleteTimer l i).map (·.1)
  | .pop => deleteTimer0 l

/-- A history of operations of the code, from a given heap. -/
def runAll [DecidableEq τ] : List (Bucket τ) → List (Op τ) → Option (List (Bucket τ))
  | l, [] => some l
  | l, o :: os =>
    match o.run l with
    | none => none
    | some l' => runAll l' os

/-- Taking the first entry and removing it, `n` times: the entries in the order they are taken. -/
def drain [DecidableEq τ] : Nat → List (Bucket τ) → Option (List (Bucket τ))
  | 0, _ => some []
  | n + 1, l =>
    match l[0]? with
    | none => none
    | some b =>
      match deleteTimer0 l with
      | none => none
      | some l' => (drain n l').map (b :: ·)

end Memar.Timer
