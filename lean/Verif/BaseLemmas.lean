import Verif.Base

/-!
# Lemmas about overwriting a region of a buffer
-/

namespace Memar

/-- `p` with the bytes from `i` on replaced by `d`. -/
def overwrite {α} (p : List α) (i : Nat) (d : List α) : List α :=
  p.take i ++ d ++ p.drop (i + d.length)

/-- `n` elements of `p` starting at `i`. -/
def region {α} (p : List α) (i n : Nat) : List α := (p.drop i).take n

variable {α : Type}

theorem overwrite_nil (p : List α) (i : Nat) : overwrite p i [] = p := by
  simp [overwrite]

theorem overwrite_length (p : List α) (i : Nat) (d : List α) (h : i + d.length ≤ p.length) :
    (overwrite p i d).length = p.length := by
  simp [overwrite]; omega

theorem overwrite_get (p : List α) (i : Nat) (d : List α) (h : i + d.length ≤ p.length) (j : Nat) :
    (overwrite p i d)[j]? = if i ≤ j ∧ j < i + d.length then d[j - i]? else p[j]? := by
  unfold overwrite
  have hi : (p.take i).length = i := by simp; omega
  split
  · rename_i hj
    rw [List.append_assoc, List.getElem?_append_right (by omega), hi,
      List.getElem?_append_left (by omega)]
  · rename_i hj
    by_cases h1 : j < i
    · rw [List.append_assoc, List.getElem?_append_left (by omega), List.getElem?_take_of_lt h1]
    · rw [List.getElem?_append_right (by simp; omega), List.getElem?_drop]
      congr 1
      simp; omega

theorem region_get (p : List α) (i n j : Nat) :
    (region p i n)[j]? = if j < n then p[i + j]? else none := by
  unfold region
  split
  · rename_i h; rw [List.getElem?_take_of_lt h, List.getElem?_drop]
  · rename_i h; rw [List.getElem?_take_eq_none (by omega)]

theorem region_length (p : List α) (i n : Nat) (h : i + n ≤ p.length) :
    (region p i n).length = n := by
  simp [region]; omega

theorem region_overwrite_same (p : List α) (i : Nat) (d : List α) (h : i + d.length ≤ p.length) :
    region (overwrite p i d) i d.length = d := by
  apply List.ext_getElem?
  intro j
  rw [region_get, overwrite_get _ _ _ h]
  split
  · rw [if_pos (by omega)]; congr 1; omega
  · rw [List.getElem?_eq_none (by omega)]

theorem region_overwrite_disjoint (p : List α) (i : Nat) (d : List α) (j n : Nat)
    (h : i + d.length ≤ p.length) (hd : j + n ≤ i ∨ i + d.length ≤ j) :
    region (overwrite p i d) j n = region p j n := by
  apply List.ext_getElem?
  intro k
  rw [region_get, region_get, overwrite_get _ _ _ h]
  split
  · rw [if_neg (by omega)]
  · rfl

theorem setAt_overwrite (p : List α) (i : Nat) (d : List α) (x : α)
    (h : i + d.length < p.length) :
    setAt (overwrite p i d) (i + d.length) x = some (overwrite p i (d ++ [x])) := by
  have hl := overwrite_length p i d (by omega)
  rw [setAt, if_pos (by omega)]
  congr 1
  apply List.ext_getElem?
  intro j
  rw [List.getElem?_set, overwrite_get _ _ _ (by omega), overwrite_get _ _ _ (by simp; omega), hl]
  simp only [List.length_append, List.length_singleton]
  by_cases hj : i + d.length = j
  · subst hj
    rw [if_pos rfl, if_pos h, if_pos (by omega), List.getElem?_append_right (by omega)]
    simp
  · rw [if_neg hj]
    by_cases hj2 : i ≤ j ∧ j < i + d.length
    · rw [if_pos hj2, if_pos (by omega), List.getElem?_append_left (by omega)]
    · rw [if_neg hj2, if_neg (by omega)]

theorem setAt_first (p : List α) (i : Nat) (x : α) (h : i < p.length) :
    setAt p i x = some (overwrite p i [x]) := by
  have := setAt_overwrite p i [] x (by simpa using h)
  simpa [overwrite_nil] using this

theorem onSliceFrom_copy (p : List α) (i : Nat) (d : List α) (h : i + d.length ≤ p.length) :
    onSliceFrom p i (fun t => some (goCopy t d)) = some (overwrite p i d) := by
  simp only [onSliceFrom, sliceFrom, if_pos (show i ≤ p.length by omega), goCopy, overwrite]
  simp only [Option.bind_eq_bind, Option.bind_some, List.drop_drop, List.length_drop,
    List.append_assoc]
  rw [List.take_of_length_le (l := d) (by omega)]

/-- `copy` into a slice that is too short keeps what fits. -/
theorem onSliceFrom_copy_trunc (p : List α) (i : Nat) (d : List α) (h : i ≤ p.length) :
    onSliceFrom p i (fun t => some (goCopy t d)) = some (overwrite p i (d.take (p.length - i))) := by
  simp only [onSliceFrom, sliceFrom, if_pos h, goCopy, overwrite]
  simp only [Option.bind_eq_bind, Option.bind_some, List.drop_drop, List.length_drop,
    List.append_assoc, List.length_take]
  by_cases h2 : d.length ≤ p.length - i
  · rw [Nat.min_eq_right h2]
  · rw [Nat.min_eq_left (by omega), List.drop_of_length_le (l := p) (i := i + d.length) (by omega),
      List.drop_of_length_le (l := p) (i := i + (p.length - i)) (by omega)]

theorem onSliceFrom_none (p : List α) (i : Nat) (f : List α → Option (List α)) (h : p.length < i) :
    onSliceFrom p i f = none := by
  simp [onSliceFrom, sliceFrom, Nat.not_le.mpr h]

theorem overwrite_overwrite_adj (p : List α) (i : Nat) (d e : List α)
    (h : i + d.length + e.length ≤ p.length) :
    overwrite (overwrite p i d) (i + d.length) e = overwrite p i (d ++ e) := by
  have hl := overwrite_length p i d (by omega)
  apply List.ext_getElem?
  intro j
  rw [overwrite_get _ _ _ (by omega), overwrite_get _ _ _ (by omega),
    overwrite_get _ _ _ (by simp; omega)]
  simp only [List.length_append]
  by_cases h1 : i + d.length ≤ j ∧ j < i + d.length + e.length
  · rw [if_pos h1, if_pos (by omega), List.getElem?_append_right (by omega)]
    congr 1; omega
  · rw [if_neg h1]
    by_cases h2 : i ≤ j ∧ j < i + d.length
    · rw [if_pos h2, if_pos (by omega), List.getElem?_append_left (by omega)]
    · rw [if_neg h2, if_neg (by omega)]

/-- Equality of buffers away from a region, the frame condition used in the properties. -/
def SameOutside (p p' : List α) (lo hi : Nat) : Prop :=
  p'.length = p.length ∧ ∀ j, (j < lo ∨ hi ≤ j) → p'[j]? = p[j]?

theorem sameOutside_overwrite (p : List α) (i : Nat) (d : List α) (h : i + d.length ≤ p.length) :
    SameOutside p (overwrite p i d) i (i + d.length) := by
  refine ⟨overwrite_length _ _ _ h, ?_⟩
  intro j hj
  rw [overwrite_get _ _ _ h, if_neg (by omega)]

end Memar
