import Verif.User.Model
import Verif.Binary.Props

/-!
# C46, C81: user types and user identifiers
-/

namespace Memar.User
open Memar

/-! ## C46 -/

/-- C46: a user type is admitted if and only if each of its bits is allowed by the base mask. -/
theorem C46_set_inclusion (base user : UserType) :
    checkUserType base user = true ↔ ∀ i, user.getLsbD i = true → base.getLsbD i = true := by
  rw [checkUserType, beq_iff_eq]
  constructor
  · intro h i hi
    rw [← h, BitVec.getLsbD_and, Bool.and_eq_true] at hi
    exact hi.2
  · intro h
    apply BitVec.eq_of_getLsbD_eq
    intro i _
    rw [BitVec.getLsbD_and]
    cases hu : user.getLsbD i with
    | false => rfl
    | true => rw [h i hu]; rfl

/-- C46: admission is reflexive and transitive. -/
theorem C46_preorder (a b c : UserType) :
    checkUserType a a = true ∧
    (checkUserType a b = true → checkUserType b c = true → checkUserType a c = true) ∧
    (checkUserType a b = true → checkUserType b a = true → a = b) := by
  simp only [C46_set_inclusion]
  refine ⟨fun i h => h, fun h1 h2 i h => h1 i (h2 i h), fun h1 h2 => ?_⟩
  apply BitVec.eq_of_getLsbD_eq
  intro i _
  have := h1 i
  have := h2 i
  cases ha : a.getLsbD i <;> cases hb : b.getLsbD i <;> simp_all

/-- C46: enlarging the mask keeps everyone admitted; a union of masks admits what either admits, and a
user type of two parts is admitted exactly if both parts are. -/
theorem C46_monotone (a b u v : UserType) :
    (checkUserType a u = true → checkUserType (a ||| b) u = true) ∧
    (checkUserType a (u ||| v) = true ↔ checkUserType a u = true ∧ checkUserType a v = true) ∧
    (checkUserType (a &&& b) u = true ↔ checkUserType a u = true ∧ checkUserType b u = true) := by
  simp only [C46_set_inclusion, BitVec.getLsbD_or, BitVec.getLsbD_and, Bool.or_eq_true, Bool.and_eq_true]
  refine ⟨fun h i hi => .inl (h i hi), ⟨fun h => ⟨fun i hi => h i (.inl hi), fun i hi => h i (.inr hi)⟩,
    fun h i hi => hi.elim (h.1 i) (h.2 i)⟩, ⟨fun h => ⟨fun i hi => (h i hi).1, fun i hi => (h i hi).2⟩,
    fun h i hi => ⟨h.1 i hi, h.2 i hi⟩⟩⟩

/-- C46: the masks the documentation describes: everyone, everyone but one kind. -/
theorem C46_masks (u : UserType) :
    checkUserType all u = true ∧
    (checkUserType (~~~guest) u = true ↔ u.getLsbD 0 = false) ∧
    (checkUserType (all ^^^ guest) u = true ↔ u.getLsbD 0 = false) ∧
    (checkUserType known u = true ↔ u.getLsbD 0 = false) ∧
    (∀ base, checkUserType base unset = true) := by
  have h : ∀ n < 256, checkUserType all (BitVec.ofNat 8 n) = true ∧
    (checkUserType (~~~guest) (BitVec.ofNat 8 n) = true ↔ (BitVec.ofNat 8 n).getLsbD 0 = false) ∧
    (checkUserType (all ^^^ guest) (BitVec.ofNat 8 n) = true ↔ (BitVec.ofNat 8 n).getLsbD 0 = false) ∧
    (checkUserType known (BitVec.ofNat 8 n) = true ↔ (BitVec.ofNat 8 n).getLsbD 0 = false) := by
    decide +kernel
  have hu := h u.toNat u.isLt
  rw [BitVec.ofNat_toNat, BitVec.setWidth_eq] at hu
  refine ⟨hu.1, hu.2.1, hu.2.2.1, hu.2.2.2, ?_⟩
  intro base
  rw [C46_set_inclusion]
  intro i hi
  simp [unset] at hi

example : checkUserType (person ||| thing) person = true ∧ checkUserType person app = false := by decide

/-! ## C81 -/

theorem newID_eq (t : UserType) (now : Time.Time) (rnd : Bytes) :
    newID t now rnd = some ([0, 0, 0, 0, 0, 0, 0, 0, 0, 0, 0, 0, t] ++ goCopy [0, 0, 0] rnd) := by
  have h1 : ∀ s, setSecondElapsed (List.replicate 16 0#8) s = some (List.replicate 16 0#8) := fun _ => rfl
  have h2 : ∀ s, setNanoSecondElapsed (List.replicate 16 0#8) s = some (List.replicate 16 0#8) := fun _ => rfl
  rw [newID, h1, Option.bind_some, h2, Option.bind_some]
  rfl

/-- C81: a new user identifier has sixteen bytes; the type is stored in byte 12 and the last three
bytes are random.  Missing: type and time are not read back, refuted below. -/
theorem C81_layout_partial (t : UserType) (now : Time.Time) (rnd : Bytes) (hr : rnd.length = 3) :
    ∃ u, newID t now rnd = some u ∧ u.length = 16 ∧ u[12]? = some t ∧ id u = rnd := by
  have hg : goCopy [0, 0, 0] rnd = rnd := by
    rw [goCopy, hr, List.drop_of_length_le (by simp), List.append_nil, List.take_of_length_le (by simp [hr])]
  refine ⟨_, newID_eq t now rnd, ?_, rfl, ?_⟩
  · rw [hg]; simp [hr]
  · show goCopy [0, 0, 0] (goCopy [0, 0, 0] rnd) = rnd
    rw [hg, goCopy, hr, List.drop_of_length_le (by simp), List.append_nil,
      List.take_of_length_le (by simp [hr])]

example := C81_layout_partial person ⟨1700000000, 5⟩ [1, 2, 3] rfl

/-- C81: the type of a new user identifier is always read as unset, whichever type it was made for. -/
theorem C81_type_violated (t : UserType) (now : Time.Time) (rnd : Bytes) :
    (newID t now rnd).bind typ = some unset := by
  rw [newID_eq]; rfl

/-- C81: the time of a new user identifier is always read as zero, whenever it was made. -/
theorem C81_time_violated (t : UserType) (now : Time.Time) (rnd : Bytes) :
    (newID t now rnd).bind existenceTime = some ⟨0, 0⟩ := by
  rw [newID_eq]; rfl

example : newID person ⟨1700000000, 5⟩ [1, 2, 3] = some [0, 0, 0, 0, 0, 0, 0, 0, 0, 0, 0, 0, 2, 1, 2, 3] := rfl

/-- C81, what reading gives for any sixteen bytes: the seconds are the number in bytes 0 to 7, the nanoseconds
the one in bytes 8 to 11, the type is byte 8 — which is part of the nanoseconds, not byte 12 — and the random
part is bytes 13 to 15.
Missing: that what is read is what the identifier was made with (refuted: `C81_type_violated`,
`C81_time_violated`, `C81_set_time_violated`). -/
theorem C81_reads_partial (u : Bytes) (h : u.length = 16) :
    secondElapsed u = some (BitVec.ofNat 64 (Binary.Spec.leVal (u.take 8))) ∧
    nanoSecondElapsed u = some (BitVec.ofNat 32 (Binary.Spec.leVal ((u.drop 8).take 4))) ∧
    typ u = u[8]? ∧ id u = u.drop 13 := by
  refine ⟨?_, ?_, rfl, ?_⟩
  · rw [secondElapsed, sliceFrom, if_pos (by omega), Option.bind_some, Binary.C01_le64_load, if_pos (by simp [h])]
    rfl
  · rw [nanoSecondElapsed, sliceFrom, if_pos (by omega), Option.bind_some, Binary.C01_le32_load, if_pos (by simp [h])]
  · have hl : (u.drop 13).length = 3 := by simp [h]
    rw [id]
    generalize u.drop 13 = t at hl
    match t, hl with
    | [a, b, c], _ => rfl

example := C81_reads_partial [1, 2, 3, 4, 5, 6, 7, 8, 9, 10, 11, 12, 13, 14, 15, 16] rfl

/-- C81 violated: setting the time of a user identifier never changes it, for every identifier and time; a
slice too short for the field panics. -/
theorem C81_set_time_violated (u : Bytes) (s : Time.I64) (n : Time.I32) :
    setSecondElapsed u s = (if 8 ≤ u.length then some u else none) ∧
    setNanoSecondElapsed u n = (if 12 ≤ u.length then some u else none) := by
  constructor
  · simp only [setSecondElapsed, onSliceFrom, sliceFrom]
    rw [if_pos (by omega)]
    simp only [Option.bind_eq_bind, Option.bind_some, List.drop_zero]
    rw [Binary.C01_le64_store]
    split <;> rfl
  · simp only [setNanoSecondElapsed, onSliceFrom, sliceFrom]
    by_cases h8 : 8 ≤ u.length
    · rw [if_pos h8]
      simp only [Option.bind_eq_bind, Option.bind_some]
      rw [Binary.C01_le32_store, List.length_drop]
      by_cases h : 12 ≤ u.length
      · rw [if_pos (by omega), if_pos h]; rfl
      · rw [if_neg (by omega), if_neg h]; rfl
    · rw [if_neg h8, if_neg (by omega)]; rfl

end Memar.User
