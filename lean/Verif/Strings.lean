import Verif.Base

/-!
# The functions of Go's `strings`/`bytes` packages used by the modelled code

Go's `-1` (not found) is `none`.
-/

namespace Memar
open Memar

/-- Go `strings.IndexByte(s, c)` -/
def indexByte (s : Bytes) (c : Byte) : Option Nat :=
  match s with
  | [] => none
  | b :: r => if b = c then some 0 else (indexByte r c).map (· + 1)

/-- Go `strings.LastIndexByte(s, c)` -/
def lastIndexByte (s : Bytes) (c : Byte) : Option Nat :=
  match s with
  | [] => none
  | b :: r =>
    match lastIndexByte r c with
    | some i => some (i + 1)
    | none => if b = c then some 0 else none

/-- Go `strings.Index(s, sub)` / `bytes.Index(s, sub)` -/
def indexOf (s sub : Bytes) : Option Nat :=
  if sub.isPrefixOf s then some 0
  else match s with
    | [] => none
    | _ :: r => (indexOf r sub).map (· + 1)

/-- ASCII lower-casing of one byte. -/
def lowerByte (b : Byte) : Byte := if ch 'A' ≤ b ∧ b ≤ ch 'Z' then b + 32 else b

theorem indexByte_none_iff (s : Bytes) (c : Byte) : indexByte s c = none ↔ c ∉ s := by
  induction s with
  | nil => simp [indexByte]
  | cons b r ih =>
    unfold indexByte
    by_cases h : b = c
    · simp [h]
    · rw [if_neg h]; simp [ih, Ne.symm h]

theorem indexByte_append (a b : Bytes) (c : Byte) (h : c ∉ a) :
    indexByte (a ++ c :: b) c = some a.length := by
  induction a with
  | nil => simp [indexByte]
  | cons x a ih =>
    simp only [List.mem_cons, not_or] at h
    rw [List.cons_append, indexByte, if_neg (Ne.symm h.1), ih h.2]; rfl

theorem indexByte_some (s : Bytes) (c : Byte) (i : Nat) (h : indexByte s c = some i) :
    s = s.take i ++ c :: s.drop (i + 1) ∧ c ∉ s.take i ∧ i < s.length := by
  induction s generalizing i with
  | nil => simp [indexByte] at h
  | cons b r ih =>
    unfold indexByte at h
    by_cases hb : b = c
    · rw [if_pos hb] at h; cases h
      simp [hb]
    · rw [if_neg hb] at h
      obtain ⟨j, hj, rfl⟩ := Option.map_eq_some_iff.mp h
      obtain ⟨h1, h2, h3⟩ := ih j hj
      refine ⟨?_, ?_, by simp; exact h3⟩
      · simp only [List.take_succ_cons, List.cons_append, List.drop_succ_cons]; rw [← h1]
      · simp only [List.take_succ_cons, List.mem_cons, not_or]
        exact ⟨Ne.symm hb, h2⟩

theorem lastIndexByte_none_iff (s : Bytes) (c : Byte) : lastIndexByte s c = none ↔ c ∉ s := by
  induction s with
  | nil => simp [lastIndexByte]
  | cons b r ih =>
    unfold lastIndexByte
    cases h : lastIndexByte r c with
    | none =>
      have := ih.mp h
      by_cases hb : b = c
      · simp [hb]
      · simp [hb, this, Ne.symm hb]
    | some i =>
      have : c ∈ r := by
        apply Decidable.byContradiction
        intro hc; rw [ih.mpr hc] at h; cases h
      simp [this]

theorem lastIndexByte_append (a b : Bytes) (c : Byte) (h : c ∉ b) :
    lastIndexByte (a ++ c :: b) c = some a.length := by
  induction a with
  | nil =>
    rw [List.nil_append, lastIndexByte, (lastIndexByte_none_iff b c).mpr h]; simp
  | cons x a ih => rw [List.cons_append, lastIndexByte, ih]; rfl

theorem take_append_len (a b : Bytes) : (a ++ b).take a.length = a := by simp

theorem drop_append_len (a b : Bytes) (c : Byte) : (a ++ c :: b).drop (a.length + 1) = b := by
  rw [← List.drop_drop, List.drop_append_of_le_length (Nat.le_refl _)]; simp

end Memar
