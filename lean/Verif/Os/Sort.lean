import Verif.Base

/-!
# C153: sorting files by the time they were changed (`os/default/sort.go`)

`sort.Sort` is a parameter: a permutation of the list in which no element is `Less` than one before it.
-/

namespace Memar.Os
open Memar

/-- What of a `FileInfo` matters here: its name and the time it was changed. -/
structure FileInfo where
  name : Bytes
  modTime : Int
deriving DecidableEq, Repr

/-- os/default/sort.go:21-23 `Less` of two elements. -/
def byModTimeLess (a b : FileInfo) : Bool := a.modTime < b.modTime

/-- Go's `sort.Sort`, by what it promises. -/
def Sorts (less : FileInfo → FileInfo → Bool) (sort : List FileInfo → List FileInfo) : Prop :=
  ∀ l, (sort l).Perm l ∧ (sort l).Pairwise fun a b => less b a = false

/-- os/default/sort.go:25-27 `SortFilesDec`: the slice afterwards. -/
def sortFilesDec (sort : (FileInfo → FileInfo → Bool) → List FileInfo → List FileInfo) (files : List FileInfo) : List FileInfo :=
  sort byModTimeLess files

/-- The files in descending order: the one changed last comes first. -/
def Descending (l : List FileInfo) : Prop := l.Pairwise fun a b => b.modTime ≤ a.modTime

/-- The files in ascending order. -/
def Ascending (l : List FileInfo) : Prop := l.Pairwise fun a b => a.modTime ≤ b.modTime

theorem sorted_ascending (sort : (FileInfo → FileInfo → Bool) → List FileInfo → List FileInfo)
    (hs : Sorts byModTimeLess (sort byModTimeLess)) (files : List FileInfo) : Ascending (sortFilesDec sort files) :=
  ((hs files).2).imp fun {a b} h => by
    simp only [byModTimeLess, decide_eq_false_iff_not] at h
    omega

theorem same_all (l : List FileInfo) (h : l.Pairwise fun a b => a.modTime = b.modTime) :
    ∀ f ∈ l, ∀ g ∈ l, f.modTime = g.modTime := by
  induction l with
  | nil => intro f hf; cases hf
  | cons a t ih =>
    rw [List.pairwise_cons] at h
    intro f hf g hg
    rcases List.mem_cons.1 hf with e | hf' <;> rcases List.mem_cons.1 hg with e' | hg'
    · rw [e, e']
    · rw [e]; exact h.1 g hg'
    · rw [e']; exact (h.1 f hf').symm
    · exact ih h.2 f hf' g hg'

/-- **C153** (partial: that no file is lost): with every sorting that keeps its promise the files afterwards are the files before,
and they are in one order of time, the ascending one.
Missing: the descending order (refuted: `C153_order_violated`). -/
theorem C153_files_partial (sort : (FileInfo → FileInfo → Bool) → List FileInfo → List FileInfo)
    (hs : Sorts byModTimeLess (sort byModTimeLess)) (files : List FileInfo) :
    (sortFilesDec sort files).Perm files ∧ Ascending (sortFilesDec sort files) :=
  ⟨(hs files).1, sorted_ascending sort hs files⟩

/-- **C153** violated for the order: whenever two files were changed at different times the files are not in descending order. -/
theorem C153_order_violated (sort : (FileInfo → FileInfo → Bool) → List FileInfo → List FileInfo)
    (hs : Sorts byModTimeLess (sort byModTimeLess)) (files : List FileInfo) (f g : FileInfo) (hf : f ∈ files) (hg : g ∈ files)
    (hne : f.modTime < g.modTime) : ¬ Descending (sortFilesDec sort files) := by
  intro hd
  have ha := sorted_ascending sort hs files
  have hp := (hs files).1
  have hboth : (sortFilesDec sort files).Pairwise fun a b => a.modTime = b.modTime :=
    (hd.and ha).imp fun h => by omega
  have := same_all _ hboth f (hp.mem_iff.2 hf) g (hp.mem_iff.2 hg)
  omega

/-- A sorting with the promise: merge sort. -/
def mergeSorted (less : FileInfo → FileInfo → Bool) (l : List FileInfo) : List FileInfo := l.mergeSort fun a b => !(less b a)

/-- The promise is met for the order used here. -/
theorem mergeSorted_sorts : Sorts byModTimeLess (mergeSorted byModTimeLess) := by
  intro l
  refine ⟨List.mergeSort_perm _ _, ?_⟩
  have := List.pairwise_mergeSort (le := fun a b => !(byModTimeLess b a))
    (fun a b c h1 h2 => by simp [byModTimeLess] at *; omega) (fun a b => by simp [byModTimeLess]; omega) l
  exact this.imp fun h => by simpa using h

/- Two files of different times. -/
example : ¬ Descending (sortFilesDec mergeSorted [⟨bs "a", 1⟩, ⟨bs "b", 2⟩]) :=
  C153_order_violated mergeSorted mergeSorted_sorts _ ⟨bs "a", 1⟩ ⟨bs "b", 2⟩ (by simp) (by simp) (by decide)

example := C153_files_partial mergeSorted mergeSorted_sorts [⟨bs "b", 2⟩, ⟨bs "a", 1⟩]

end Memar.Os
