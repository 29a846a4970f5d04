import Verif.Base

/-!
# Model of `timer/timing-heap.go`

The 4-ary heap of `timerBucketHeap` entries.  A timer pointer (`*Async`) is an element of an
arbitrary type `τ` with decidable equality; a deadline (`monotonic.Time`, an `int64`) is an
`Int`, since the heap only ever compares deadlines.  `none` is an index panic.

Not modelled here: the write `timers[i].timer.timing = nil` of lines 51 and 74 (the back pointer
of the removed timer; it is part of the timer, not of the heap), and the clearing of the
dropped slot of lines 57 and 80 (the slot is outside the slice afterwards).
-/

namespace Memar.Timer

/-- timer/timing-heap-bucket.go:10-16 -/
structure Bucket (τ : Type) where
  timer : τ
  when : Int
deriving DecidableEq, Repr

/-- timer/const.go:18 -/
def heapAry : Nat := 4

variable {τ : Type}

/-- timer/timing-heap.go:46 -/
def append (timers : List (Bucket τ)) (b : Bucket τ) : List (Bucket τ) := timers ++ [b]

/-- The loop of timer/timing-heap.go:95-102. -/
def siftUpLoop (timerWhen : Int) (timers : List (Bucket τ)) (i : Nat) :
    Option (List (Bucket τ) × Nat) :=
  if _h : i > 0 then
    match timers[(i - 1) / heapAry]? with
    | none => none
    | some p =>
      if timerWhen ≥ p.when then some (timers, i)
      else
        match setAt timers i p with
        | none => none
        | some timers' => siftUpLoop timerWhen timers' ((i - 1) / heapAry)
  else some (timers, i)
termination_by i
decreasing_by simp only [heapAry]; omega

/-- timer/timing-heap.go:103-105 and 145-147: the entry taken out at the start is put in the
final position. -/
def place [DecidableEq τ] (timers : List (Bucket τ)) (i : Nat) (tmp : Bucket τ) :
    Option (List (Bucket τ)) :=
  match timers[i]? with
  | none => none
  | some b => if tmp ≠ b then setAt timers i tmp else some timers

/-- timer/timing-heap.go:90-107 -/
def siftUp [DecidableEq τ] (timers : List (Bucket τ)) (i : Nat) :
    Option (List (Bucket τ) × Nat) :=
  match timers[i]? with
  | none => none
  | some tmp =>
    match siftUpLoop tmp.when timers i with
    | none => none
    | some (timers', j) =>
      match place timers' j tmp with
      | none => none
      | some timers'' => some (timers'', j)

/-- One of the pairwise choices of timer/timing-heap.go:124-127 and 130-133: `c` or `c+1`,
whichever is earlier.  The index `c` itself is known to be in range. -/
def pickPair (timers : List (Bucket τ)) (c : Nat) (w : Int) : Nat × Int :=
  match timers[c + 1]? with
  | none => (c, w)
  | some b => if b.when < w then (c + 1, b.when) else (c, w)

/-- timer/timing-heap.go:118-138: the earliest child of `i` and its deadline; `none` when `i`
has no child (the `break` of line 121). -/
def minChild (timers : List (Bucket τ)) (i : Nat) : Option (Nat × Int) :=
  match timers[i * heapAry + 1]? with
  | none => none
  | some b =>
    match timers[i * heapAry + 1 + heapAry / 2]? with
    | none => some (pickPair timers (i * heapAry + 1) b.when)
    | some b3 =>
      if (pickPair timers (i * heapAry + 1 + heapAry / 2) b3.when).2 <
          (pickPair timers (i * heapAry + 1) b.when).2 then
        some (pickPair timers (i * heapAry + 1 + heapAry / 2) b3.when)
      else some (pickPair timers (i * heapAry + 1) b.when)

theorem pickPair_ge (timers : List (Bucket τ)) (c : Nat) (w : Int) :
    c ≤ (pickPair timers c w).1 := by
  unfold pickPair; split
  · exact Nat.le_refl _
  · split <;> simp

theorem minChild_gt {timers : List (Bucket τ)} {i c : Nat} {w : Int}
    (h : minChild timers i = some (c, w)) : i < c := by
  unfold minChild at h
  split at h
  · cases h
  · rename_i b hb
    have h1 := pickPair_ge timers (i * heapAry + 1) b.when
    split at h
    · have h' := congrArg Prod.fst (Option.some.inj h)
      simp only [heapAry] at *; omega
    · rename_i b3 hb3
      have h3 := pickPair_ge timers (i * heapAry + 1 + heapAry / 2) b3.when
      split at h <;>
        (have h' := congrArg Prod.fst (Option.some.inj h)
         simp only [heapAry] at *; omega)

/-- The loop of timer/timing-heap.go:117-144. -/
def siftDownLoop (timerWhen : Int) (timers : List (Bucket τ)) (i : Nat) :
    Option (List (Bucket τ) × Nat) :=
  match _hm : minChild timers i with
  | none => some (timers, i)
  | some (c, w) =>
    if w ≥ timerWhen then some (timers, i)
    else
      match _hc : timers[c]? with
      | none => none
      | some b =>
        match _hs : setAt timers i b with
        | none => none
        | some timers' => siftDownLoop timerWhen timers' c
termination_by timers.length - i
decreasing_by
  have h1 := minChild_gt _hm
  have h2 : c < timers.length := by
    rw [List.getElem?_eq_some_iff] at _hc; exact _hc.1
  unfold setAt at _hs
  split at _hs
  · cases _hs; simp only [List.length_set]; omega
  · cases _hs

/-- timer/timing-heap.go:111-148 -/
def siftDown [DecidableEq τ] (timers : List (Bucket τ)) (i : Nat) : Option (List (Bucket τ)) :=
  match timers[i]? with
  | none => none
  | some tmp =>
    match siftDownLoop tmp.when timers i with
    | none => none
    | some (timers', j) => place timers' j tmp

/-- timer/timing-heap.go:50-69: the entries left and the smallest changed index.
`timers[i]` of line 51 panics when `i` is not an index. -/
def deleteTimer [DecidableEq τ] (timers : List (Bucket τ)) (i : Nat) :
    Option (List (Bucket τ) × Nat) :=
  match timers[i]? with
  | none => none
  | some _ =>
    if i ≠ timers.length - 1 then
      match timers[timers.length - 1]? with
      | none => none
      | some l =>
        match siftUp ((timers.set i l).take (timers.length - 1)) i with
        | none => none
        | some (t1, smallestChanged) =>
          match siftDown t1 i with
          | none => none
          | some t2 => some (t2, smallestChanged)
    else some (timers.take (timers.length - 1), i)

/-- timer/timing-heap.go:73-85 -/
def deleteTimer0 [DecidableEq τ] (timers : List (Bucket τ)) : Option (List (Bucket τ)) :=
  match timers[0]? with
  | none => none
  | some _ =>
    if timers.length - 1 > 0 then
      match timers[timers.length - 1]? with
      | none => none
      | some l => siftDown ((timers.set 0 l).take (timers.length - 1)) 0
    else some (timers.take (timers.length - 1))

/-- The way an entry enters the heap, timer/timing.go:126-129: `Append`, then `SiftUpTimer` at
the index it was appended at. -/
def insert [DecidableEq τ] (timers : List (Bucket τ)) (b : Bucket τ) : Option (List (Bucket τ)) :=
  (siftUp (append timers b) timers.length).map (·.1)

end Memar.Timer
