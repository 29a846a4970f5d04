import Verif.Syllab.Lemmas

/-!
# C03: syllab fixed-size fields

`Kind` enumerates the integer field kinds of the encoding so that one theorem speaks about
every pair of fields; `set`/`get` dispatch to the modelled Go functions.
-/

namespace Memar.Syllab
open Memar Memar.Binary Spec

/-- The fixed-size integer field kinds. -/
inductive Kind where
  | byte | int8 | uint8 | int16 | uint16 | int32 | uint32 | int64 | uint64
  deriving DecidableEq, Repr

/-- Size in bytes of a field kind. -/
def Kind.size : Kind → Nat
  | .byte | .int8 | .uint8 => 1
  | .int16 | .uint16 => 2
  | .int32 | .uint32 => 4
  | .int64 | .uint64 => 8

/-- The Go setter for the kind. -/
def Kind.set : (k : Kind) → Bytes → U32 → BitVec (8 * k.size) → Option Bytes
  | .byte => setByte | .int8 => setInt8 | .uint8 => setUInt8
  | .int16 => setInt16 | .uint16 => setUInt16
  | .int32 => setInt32 | .uint32 => setUInt32
  | .int64 => setInt64 | .uint64 => setUInt64

/-- The Go getter for the kind. -/
def Kind.get : (k : Kind) → Bytes → U32 → Option (BitVec (8 * k.size))
  | .byte => getByte | .int8 => getInt8 | .uint8 => getUInt8
  | .int16 => getInt16 | .uint16 => getUInt16
  | .int32 => getInt32 | .uint32 => getUInt32
  | .int64 => getInt64 | .uint64 => getUInt64

/-- A field of kind `k` at index `i` lies inside the buffer (and inside the 32-bit index space). -/
def Kind.Fits (k : Kind) (p : Bytes) (i : U32) : Prop :=
  i.toNat + k.size ≤ p.length ∧ i.toNat + k.size ≤ 2 ^ 32

theorem leDigits_one (v : U8) : leDigits 1 v.toNat = [v] := by
  simp [leDigits]

theorem Kind.set_eq (k : Kind) (p : Bytes) (i : U32) (v : BitVec (8 * k.size)) (h : k.Fits p i) :
    k.set p i v = some (overwrite p i.toNat (leDigits k.size v.toNat)) :=
  match k, v, h with
  | .byte, v, h => (setAt_first p _ _ (Nat.lt_of_succ_le h.1)).trans
      (congrArg (fun d => some (overwrite p i.toNat d)) (leDigits_one v).symm)
  | .int8, v, h => (setAt_first p _ _ (Nat.lt_of_succ_le h.1)).trans
      (congrArg (fun d => some (overwrite p i.toNat d)) (leDigits_one v).symm)
  | .uint8, v, h => (setAt_first p _ _ (Nat.lt_of_succ_le h.1)).trans
      (congrArg (fun d => some (overwrite p i.toNat d)) (leDigits_one v).symm)
  | .int16, v, h => (setInt16_eq p i v).trans (setUInt16_eq p i v h.1 h.2)
  | .uint16, v, h => setUInt16_eq p i v h.1 h.2
  | .int32, v, h => (setInt32_eq p i v).trans (setUInt32_eq p i v h.1 h.2)
  | .uint32, v, h => setUInt32_eq p i v h.1 h.2
  | .int64, v, h => (setInt64_eq p i v).trans (setUInt64_eq p i v h.1 h.2)
  | .uint64, v, h => setUInt64_eq p i v h.1 h.2

theorem get_one (p : Bytes) (i : U32) (h : i.toNat + 1 ≤ p.length) :
    p[i.toNat]? = some (BitVec.ofNat 8 (leVal (region p i.toNat 1))) := by
  have hl := region_length p i.toNat 1 h
  obtain ⟨r, hr⟩ : ∃ r, region p i.toNat 1 = r := ⟨_, rfl⟩
  rw [hr] at hl ⊢
  match r, hl with
  | [a], _ =>
    have g0 := get_of_region hr 0 (by omega)
    simp at g0
    simp [g0, leVal]

theorem Kind.get_eq (k : Kind) (p : Bytes) (i : U32) (h : k.Fits p i) :
    k.get p i = some (BitVec.ofNat _ (leVal (region p i.toNat k.size))) := by
  obtain ⟨h1, h2⟩ := h
  cases k <;> simp only [Kind.get, Kind.size] at *
  · exact get_one p i h1
  · exact get_one p i h1
  · exact get_one p i h1
  · exact getUInt16_eq p i h1 h2
  · exact getUInt16_eq p i h1 h2
  · exact getUInt32_eq p i h1 h2
  · exact getUInt32_eq p i h1 h2
  · exact getUInt64_eq p i h1 h2
  · exact getUInt64_eq p i h1 h2

/-- **C03**: setting an integer field that fits succeeds, reading it returns the value, every other
byte keeps its value, and so does every other field (of any kind) that does not overlap it. -/
theorem C03_fixed_roundtrip (k : Kind) (p : Bytes) (i : U32) (v : BitVec (8 * k.size))
    (h : k.Fits p i) :
    ∃ p', k.set p i v = some p' ∧ k.get p' i = some v ∧
      SameOutside p p' i.toNat (i.toNat + k.size) ∧
      ∀ (k' : Kind) (j : U32), k'.Fits p j →
        (j.toNat + k'.size ≤ i.toNat ∨ i.toNat + k.size ≤ j.toNat) → k'.get p' j = k'.get p j := by
  have hd : (leDigits k.size v.toNat).length = k.size := leDigits_length _ _
  have hlen : i.toNat + (leDigits k.size v.toNat).length ≤ p.length := by rw [hd]; exact h.1
  refine ⟨_, k.set_eq p i v h, ?_, ?_, ?_⟩
  · have hf : k.Fits (overwrite p i.toNat (leDigits k.size v.toNat)) i := by
      refine ⟨?_, h.2⟩
      rw [overwrite_length _ _ _ hlen]; exact h.1
    rw [k.get_eq _ _ hf]
    have := region_overwrite_same p i.toNat _ hlen
    rw [hd] at this
    rw [this, ofNat_leVal_digits k.size rfl]
  · have := sameOutside_overwrite p i.toNat _ hlen
    rwa [hd] at this
  · intro k' j hf hdis
    have hf' : k'.Fits (overwrite p i.toNat (leDigits k.size v.toNat)) j := by
      refine ⟨?_, hf.2⟩
      rw [overwrite_length _ _ _ hlen]; exact hf.1
    rw [k'.get_eq _ _ hf', k'.get_eq _ _ hf, region_overwrite_disjoint _ _ _ _ _ hlen]
    rw [hd]; exact hdis

/-- non-vacuity: a 32-bit field at index 1 of a 6-byte buffer, with a neighbour on each side -/
example : Kind.uint32.Fits [1, 2, 3, 4, 5, 6] 1 ∧ Kind.byte.Fits [1, 2, 3, 4, 5, 6] 5 ∧
    Kind.uint32.set [1, 2, 3, 4, 5, 6] 1 0x0A0B0C0D = some [1, 0x0D, 0x0C, 0x0B, 0x0A, 6] := by
  refine ⟨⟨by decide, by decide⟩, ⟨by decide, by decide⟩, by decide⟩

/-- **C03**, values as the signed integers Go users see: an `int32` field returns the integer set. -/
theorem C03_int32_value (p : Bytes) (i : U32) (n : Int) (h : Kind.int32.Fits p i)
    (hn : -2 ^ 31 ≤ n ∧ n < 2 ^ 31) :
    ∃ p' v, setInt32 p i (BitVec.ofInt 32 n) = some p' ∧ getInt32 p' i = some v ∧ v.toInt = n := by
  obtain ⟨p', h1, h2, _⟩ := C03_fixed_roundtrip .int32 p i (BitVec.ofInt 32 n) h
  refine ⟨p', _, h1, h2, ?_⟩
  show (BitVec.ofInt 32 n).toInt = n
  rw [BitVec.toInt_ofInt]
  apply Int.bmod_eq_of_le <;> omega

example := C03_int32_value [1, 2, 3, 4, 5, 6] 1 (-7) ⟨by decide, by decide⟩ (by decide)

theorem setAt_bind_none (p : Bytes) (j : Nat) (x : Byte) (f : Bytes → Option Bytes)
    (h : ∀ q : Bytes, q.length = p.length → f q = none) : (setAt p j x).bind f = none := by
  unfold setAt
  split
  · exact h _ (by simp)
  · rfl

theorem setAt_none (p : Bytes) (j : Nat) (x : Byte) (h : p.length ≤ j) : setAt p j x = none := by
  rw [setAt, if_neg (by omega)]

theorem setUInt16_none (p : Bytes) (i : U32) (v : U16) (hw : i.toNat + 2 ≤ 2 ^ 32)
    (h : p.length < i.toNat + 2) : setUInt16 p i v = none := by
  have e : (i + 1).toNat = i.toNat + 1 := idx i 1 (by omega)
  simp only [setUInt16, Option.bind_eq_bind]
  exact setAt_bind_none _ _ _ _ fun q hq => setAt_none _ _ _ (by rw [e]; omega)

theorem setUInt32_none (p : Bytes) (i : U32) (v : U32) (hw : i.toNat + 4 ≤ 2 ^ 32)
    (h : p.length < i.toNat + 4) : setUInt32 p i v = none := by
  have e : (i + 3).toNat = i.toNat + 3 := idx i 3 (by omega)
  simp only [setUInt32, Option.bind_eq_bind]
  refine setAt_bind_none _ _ _ _ fun q hq => setAt_bind_none _ _ _ _ fun q2 hq2 =>
    setAt_bind_none _ _ _ _ fun q3 hq3 => setAt_none _ _ _ (by rw [e]; omega)

theorem setUInt64_none (p : Bytes) (i : U32) (v : U64) (hw : i.toNat + 8 ≤ 2 ^ 32)
    (h : p.length < i.toNat + 8) : setUInt64 p i v = none := by
  have e : (i + 7).toNat = i.toNat + 7 := idx i 7 (by omega)
  simp only [setUInt64, Option.bind_eq_bind]
  refine setAt_bind_none _ _ _ _ fun q hq => setAt_bind_none _ _ _ _ fun q2 hq2 =>
    setAt_bind_none _ _ _ _ fun q3 hq3 => setAt_bind_none _ _ _ _ fun q4 hq4 =>
    setAt_bind_none _ _ _ _ fun q5 hq5 => setAt_bind_none _ _ _ _ fun q6 hq6 =>
    setAt_bind_none _ _ _ _ fun q7 hq7 => setAt_none _ _ _ (by rw [e]; omega)

theorem getUInt16_none (p : Bytes) (i : U32) (hw : i.toNat + 2 ≤ 2 ^ 32)
    (h : p.length < i.toNat + 2) : getUInt16 p i = none := by
  have e : (i + 1).toNat = i.toNat + 1 := idx i 1 (by omega)
  have h3 : p[i.toNat + 1]? = none := by simp; omega
  simp only [getUInt16, e, h3, Option.bind_eq_bind, Option.bind_none]; simp

theorem getUInt32_none (p : Bytes) (i : U32) (hw : i.toNat + 4 ≤ 2 ^ 32)
    (h : p.length < i.toNat + 4) : getUInt32 p i = none := by
  have e : (i + 3).toNat = i.toNat + 3 := idx i 3 (by omega)
  have h3 : p[i.toNat + 3]? = none := by simp; omega
  simp only [getUInt32, e, h3, Option.bind_eq_bind, Option.bind_none]; simp

theorem getUInt64_none (p : Bytes) (i : U32) (hw : i.toNat + 8 ≤ 2 ^ 32)
    (h : p.length < i.toNat + 8) : getUInt64 p i = none := by
  have e : (i + 7).toNat = i.toNat + 7 := idx i 7 (by omega)
  have h3 : p[i.toNat + 7]? = none := by simp; omega
  simp only [getUInt64, e, h3, Option.bind_eq_bind, Option.bind_none]; simp

/-- A part of a word that sticks out of a buffer of less than 2^32 bytes: the index of one of its bytes is outside the buffer, and
the sums of the index up to there do not wrap. -/
theorem sticks_out (p : Bytes) (i : U32) (m : Nat) (hp : p.length < 2 ^ 32) (h : p.length < i.toNat + m) (hm : 0 < m) :
    ∃ j < m, p.length ≤ (i + BitVec.ofNat 32 j).toNat := by
  by_cases hi : p.length ≤ i.toNat
  · exact ⟨0, hm, by simpa using hi⟩
  · have hlt : p.length - i.toNat < 2 ^ 32 := by omega
    refine ⟨p.length - i.toNat, by omega, ?_⟩
    rw [BitVec.toNat_add, BitVec.toNat_ofNat, Nat.mod_eq_of_lt hlt, Nat.mod_eq_of_lt (by omega)]
    omega

theorem setUInt16_out (p : Bytes) (i : U32) (v : U16) (hp : p.length < 2 ^ 32)
    (h : p.length < i.toNat + 2) : setUInt16 p i v = none ∧ getUInt16 p i = none := by
  obtain ⟨j, hj, hl⟩ := sticks_out p i 2 hp h (by decide)
  rcases (show j = 0 ∨ j = 1 by omega) with rfl | rfl
  · rw [show i + BitVec.ofNat 32 0 = i by simp] at hl
    exact ⟨by simp only [setUInt16, Option.bind_eq_bind]; rw [setAt_none _ _ _ hl]; rfl,
      by simp only [getUInt16, List.getElem?_eq_none hl]; rfl⟩
  · refine ⟨?_, by simp only [getUInt16, show p[(i + 1).toNat]? = none from List.getElem?_eq_none hl]; cases p[i.toNat]? <;> rfl⟩
    simp only [setUInt16, Option.bind_eq_bind]
    exact setAt_bind_none _ _ _ _ fun q hq => setAt_none _ _ _ (by rw [hq]; exact hl)

theorem setUInt32_out (p : Bytes) (i : U32) (v : U32) (hp : p.length < 2 ^ 32)
    (h : p.length < i.toNat + 4) : setUInt32 p i v = none ∧ getUInt32 p i = none := by
  obtain ⟨j, hj, hl⟩ := sticks_out p i 4 hp h (by decide)
  constructor
  · simp only [setUInt32, Option.bind_eq_bind]
    rcases (show j = 0 ∨ j = 1 ∨ j = 2 ∨ j = 3 by omega) with rfl | rfl | rfl | rfl
    · rw [show i + BitVec.ofNat 32 0 = i by simp] at hl
      rw [setAt_none _ _ _ hl]; rfl
    · refine setAt_bind_none _ _ _ _ fun q hq => ?_
      rw [setAt_none _ _ _ (by rw [hq]; exact hl)]; rfl
    · refine setAt_bind_none _ _ _ _ fun q hq => setAt_bind_none _ _ _ _ fun q2 hq2 => ?_
      rw [setAt_none _ _ _ (by rw [hq2, hq]; exact hl)]; rfl
    · refine setAt_bind_none _ _ _ _ fun q hq => setAt_bind_none _ _ _ _ fun q2 hq2 => setAt_bind_none _ _ _ _ fun q3 hq3 => ?_
      rw [setAt_none _ _ _ (by rw [hq3, hq2, hq]; exact hl)]
  · have hn : p[(i + BitVec.ofNat 32 j).toNat]? = none := List.getElem?_eq_none hl
    simp only [getUInt32, Option.bind_eq_bind]
    rcases (show j = 0 ∨ j = 1 ∨ j = 2 ∨ j = 3 by omega) with rfl | rfl | rfl | rfl
    · rw [show i + BitVec.ofNat 32 0 = i by simp] at hn; rw [hn]; rfl
    · rw [show p[(i + 1).toNat]? = none from hn]; cases p[i.toNat]? <;> rfl
    · rw [show p[(i + 2).toNat]? = none from hn]; cases p[i.toNat]? <;> cases p[(i + 1).toNat]? <;> rfl
    · rw [show p[(i + 3).toNat]? = none from hn]
      cases p[i.toNat]? <;> cases p[(i + 1).toNat]? <;> cases p[(i + 2).toNat]? <;> rfl

theorem setUInt64_out (p : Bytes) (i : U32) (v : U64) (hp : p.length < 2 ^ 32)
    (h : p.length < i.toNat + 8) : setUInt64 p i v = none ∧ getUInt64 p i = none := by
  obtain ⟨j, hj, hl⟩ := sticks_out p i 8 hp h (by decide)
  constructor
  · simp only [setUInt64, Option.bind_eq_bind]
    rcases (show j = 0 ∨ j = 1 ∨ j = 2 ∨ j = 3 ∨ j = 4 ∨ j = 5 ∨ j = 6 ∨ j = 7 by omega) with
      rfl | rfl | rfl | rfl | rfl | rfl | rfl | rfl
    · rw [show i + BitVec.ofNat 32 0 = i by simp] at hl
      rw [setAt_none _ _ _ hl]; rfl
    · refine setAt_bind_none _ _ _ _ fun q hq => ?_
      rw [setAt_none _ _ _ (by rw [hq]; exact hl)]; rfl
    · refine setAt_bind_none _ _ _ _ fun q hq => setAt_bind_none _ _ _ _ fun q2 hq2 => ?_
      rw [setAt_none _ _ _ (by rw [hq2, hq]; exact hl)]; rfl
    · refine setAt_bind_none _ _ _ _ fun q hq => setAt_bind_none _ _ _ _ fun q2 hq2 => setAt_bind_none _ _ _ _ fun q3 hq3 => ?_
      rw [setAt_none _ _ _ (by rw [hq3, hq2, hq]; exact hl)]; rfl
    · refine setAt_bind_none _ _ _ _ fun q hq => setAt_bind_none _ _ _ _ fun q2 hq2 => setAt_bind_none _ _ _ _ fun q3 hq3 =>
        setAt_bind_none _ _ _ _ fun q4 hq4 => ?_
      rw [setAt_none _ _ _ (by rw [hq4, hq3, hq2, hq]; exact hl)]; rfl
    · refine setAt_bind_none _ _ _ _ fun q hq => setAt_bind_none _ _ _ _ fun q2 hq2 => setAt_bind_none _ _ _ _ fun q3 hq3 =>
        setAt_bind_none _ _ _ _ fun q4 hq4 => setAt_bind_none _ _ _ _ fun q5 hq5 => ?_
      rw [setAt_none _ _ _ (by rw [hq5, hq4, hq3, hq2, hq]; exact hl)]; rfl
    · refine setAt_bind_none _ _ _ _ fun q hq => setAt_bind_none _ _ _ _ fun q2 hq2 => setAt_bind_none _ _ _ _ fun q3 hq3 =>
        setAt_bind_none _ _ _ _ fun q4 hq4 => setAt_bind_none _ _ _ _ fun q5 hq5 => setAt_bind_none _ _ _ _ fun q6 hq6 => ?_
      rw [setAt_none _ _ _ (by rw [hq6, hq5, hq4, hq3, hq2, hq]; exact hl)]; rfl
    · refine setAt_bind_none _ _ _ _ fun q hq => setAt_bind_none _ _ _ _ fun q2 hq2 => setAt_bind_none _ _ _ _ fun q3 hq3 =>
        setAt_bind_none _ _ _ _ fun q4 hq4 => setAt_bind_none _ _ _ _ fun q5 hq5 => setAt_bind_none _ _ _ _ fun q6 hq6 =>
        setAt_bind_none _ _ _ _ fun q7 hq7 => ?_
      rw [setAt_none _ _ _ (by rw [hq7, hq6, hq5, hq4, hq3, hq2, hq]; exact hl)]
  · have hn : p[(i + BitVec.ofNat 32 j).toNat]? = none := List.getElem?_eq_none hl
    simp only [getUInt64, Option.bind_eq_bind]
    rcases (show j = 0 ∨ j = 1 ∨ j = 2 ∨ j = 3 ∨ j = 4 ∨ j = 5 ∨ j = 6 ∨ j = 7 by omega) with
      rfl | rfl | rfl | rfl | rfl | rfl | rfl | rfl
    · rw [show i + BitVec.ofNat 32 0 = i by simp] at hn; rw [hn]; rfl
    · rw [show p[(i + 1).toNat]? = none from hn]; simp
    · rw [show p[(i + 2).toNat]? = none from hn]; simp
    · rw [show p[(i + 3).toNat]? = none from hn]; simp
    · rw [show p[(i + 4).toNat]? = none from hn]; simp
    · rw [show p[(i + 5).toNat]? = none from hn]; simp
    · rw [show p[(i + 6).toNat]? = none from hn]; simp
    · rw [show p[(i + 7).toNat]? = none from hn]; simp

/-- **C03**: in a buffer of less than 2^32 bytes, a field that does not lie inside the buffer makes setter and getter panic,
whatever the index; nothing is read from or written to memory outside the buffer, nor anywhere else in it. -/
theorem C03_fixed_out_of_range (k : Kind) (p : Bytes) (i : U32) (v : BitVec (8 * k.size))
    (hp : p.length < 2 ^ 32) (h : p.length < i.toNat + k.size) :
    k.set p i v = none ∧ k.get p i = none :=
  match k, v, h with
  | .byte, v, h => ⟨setAt_none _ _ _ (Nat.le_of_lt_succ h), List.getElem?_eq_none (Nat.le_of_lt_succ h)⟩
  | .int8, v, h => ⟨setAt_none _ _ _ (Nat.le_of_lt_succ h), List.getElem?_eq_none (Nat.le_of_lt_succ h)⟩
  | .uint8, v, h => ⟨setAt_none _ _ _ (Nat.le_of_lt_succ h), List.getElem?_eq_none (Nat.le_of_lt_succ h)⟩
  | .int16, v, h => ⟨(setInt16_eq p i v).trans (setUInt16_out p i v hp h).1, (setUInt16_out p i v hp h).2⟩
  | .uint16, v, h => setUInt16_out p i v hp h
  | .int32, v, h => ⟨(setInt32_eq p i v).trans (setUInt32_out p i v hp h).1, (setUInt32_out p i v hp h).2⟩
  | .uint32, v, h => setUInt32_out p i v hp h
  | .int64, v, h => ⟨(setInt64_eq p i v).trans (setUInt64_out p i v hp h).1, (setUInt64_out p i v hp h).2⟩
  | .uint64, v, h => setUInt64_out p i v hp h

/-- **C03**: why the bound is there: in a buffer of 2^32 bytes or more the sums of a field that begins at the last index wrap, and
the field goes on at the front of the buffer. -/
theorem C03_wraps (p : Bytes) (v : U16) (hp : 2 ^ 32 ≤ p.length) :
    Kind.uint16.set p (BitVec.allOnes 32) v = some ((p.set (2 ^ 32 - 1) (v.truncate 8)).set 0 ((v >>> 8).truncate 8)) := by
  show setUInt16 p (BitVec.allOnes 32) v = _
  simp only [setUInt16, Option.bind_eq_bind, setAt, show (BitVec.allOnes 32).toNat = 2 ^ 32 - 1 from rfl,
    show ((BitVec.allOnes 32 : U32) + 1).toNat = 0 by decide]
  rw [if_pos (by omega)]
  simp only [Option.bind_some]
  rw [if_pos (by rw [List.length_set]; omega)]
  congr 1

example := C03_wraps (List.replicate (2 ^ 32) 0) 0x1234 (by rw [List.length_replicate]; exact Nat.le_refl _)

example : Kind.uint32.set [1, 2, 3, 4] 1 7 = none ∧ Kind.uint32.get [1, 2, 3, 4] 1 = none := by decide

/-- **C03** for booleans, full statement: what is set is read back. -/
def BoolRoundTrip : Prop :=
  ∀ (p p' : Bytes) (i : U32) (b : Bool), setBool p i b = some p' → i.toNat < p.length →
    getBool p' i = some b

/-- **C177** for booleans is violated on a buffer that is not zero: `false` is not written. -/
theorem C177_bool_violated : ¬ BoolRoundTrip := by
  intro h
  have := h [1] [1] 0 false rfl (by decide)
  exact absurd this (by decide)

/-- **C177** for booleans: `true` always round-trips; `false` does exactly when the byte was not 1.
Missing: the values that do not survive, complex numbers, and the getter of fixed arrays
(refuted: `C177_bool_violated`, `C177_float32_violated`, `C177_complex_violated` and others). -/
theorem C177_bool_partial (p : Bytes) (i : U32) (x : Byte) (hx : p[i.toNat]? = some x) :
    (∃ p', setBool p i true = some p' ∧ getBool p' i = some true ∧
      SameOutside p p' i.toNat (i.toNat + 1)) ∧
    (∃ p', setBool p i false = some p' ∧ (getBool p' i = some false ↔ x ≠ 1)) := by
  have hi : i.toNat < p.length := by
    rcases Nat.lt_or_ge i.toNat p.length with h | h
    · exact h
    · rw [List.getElem?_eq_none h] at hx; cases hx
  constructor
  · refine ⟨_, (setAt_first p _ _ hi : setBool p i true = _), ?_, ?_⟩
    · have := overwrite_get p i.toNat [(1 : Byte)] (by simp; omega) i.toNat
      simp only [Nat.le_refl, List.length_cons, List.length_nil, true_and, Nat.lt_add_one,
        if_true, Nat.sub_self, Nat.zero_add] at this
      simp only [getBool, this]; rfl
    · exact sameOutside_overwrite p i.toNat [1] (by simp; omega)
  · refine ⟨p, rfl, ?_⟩
    simp [getBool, hx]

example := C177_bool_partial [1, 2, 3, 4, 5, 6] 0 1 rfl

/-- **C177** for floats: what comes back is the value sent through an integer conversion, so the round
trip is exact precisely for the values that survive that conversion.
Missing: the values that do not survive, complex numbers, and the getter of fixed arrays
(refuted: `C177_bool_violated`, `C177_float32_violated`, `C177_complex_violated` and others). -/
theorem C177_float32_partial {F} (c : FloatConv F 32) (p : Bytes) (i : U32) (x : F)
    (h : Kind.uint32.Fits p i) :
    ∃ p', setFloat32 c p i x = some p' ∧ getFloat32 c p' i = some (c.ofWord (c.toWord x)) := by
  obtain ⟨p', h1, h2, _⟩ := C03_fixed_roundtrip .uint32 p i (c.toWord x) h
  exact ⟨p', h1, by simp only [getFloat32]; rw [show getUInt32 p' i = _ from h2]; rfl⟩

example := C177_float32_partial (F := Nat) ⟨fun n => BitVec.ofNat 32 n, BitVec.toNat⟩ [1, 2, 3, 4, 5, 6] 1 7 ⟨by decide, by decide⟩

/-- **C177** for 64-bit floats, as for 32-bit ones.
Missing: the values that do not survive, complex numbers, and the getter of fixed arrays
(refuted: `C177_bool_violated`, `C177_float32_violated`, `C177_complex_violated` and others). -/
theorem C177_float64_partial {F} (c : FloatConv F 64) (p : Bytes) (i : U32) (x : F)
    (h : Kind.uint64.Fits p i) :
    ∃ p', setFloat64 c p i x = some p' ∧ getFloat64 c p' i = some (c.ofWord (c.toWord x)) := by
  obtain ⟨p', h1, h2, _⟩ := C03_fixed_roundtrip .uint64 p i (c.toWord x) h
  exact ⟨p', h1, by simp only [getFloat64]; rw [show getUInt64 p' i = _ from h2]; rfl⟩

example := C177_float64_partial (F := Nat) ⟨fun n => BitVec.ofNat 64 n, BitVec.toNat⟩ (List.replicate 9 1) 1 7 ⟨by decide, by decide⟩

/-- **C177** for floats is violated for every conversion that truncates, e.g. for any value `x` that the
integer conversion does not preserve. -/
theorem C177_float32_violated {F} (c : FloatConv F 32) (x : F) (hx : c.ofWord (c.toWord x) ≠ x)
    (p : Bytes) (i : U32) (h : Kind.uint32.Fits p i) :
    ∃ p', setFloat32 c p i x = some p' ∧ getFloat32 c p' i ≠ some x := by
  obtain ⟨p', h1, h2⟩ := C177_float32_partial c p i x h
  refine ⟨p', h1, ?_⟩
  rw [h2]
  intro he
  exact hx (Option.some.inj he)

/-- A float type with the value one half: numbers counted in halves, converted by truncation. -/
def halves : FloatConv Nat 32 := ⟨fun x => BitVec.ofNat 32 (x / 2), fun u => 2 * u.toNat⟩

example : halves.ofWord (halves.toWord 1) ≠ 1 := by decide

/-- **C177** for complex numbers is violated even when both conversions are exact: the imaginary part is
written at offset 3 (7) and read at offset 4 (8). -/
theorem C177_complex_violated :
    (∃ p' , setComplex64 (F := U32) ⟨id, id⟩ (List.replicate 8 0) 0 (0, 1) = some p' ∧
      getComplex64 (F := U32) ⟨id, id⟩ p' 0 ≠ some (0, 1)) ∧
    (∃ p' , setComplex128 (F := U64) ⟨id, id⟩ (List.replicate 16 0) 0 (0, 1) = some p' ∧
      getComplex128 (F := U64) ⟨id, id⟩ p' 0 ≠ some (0, 1)) := by
  refine ⟨⟨_, rfl, by decide⟩, ⟨_, rfl, by decide⟩⟩

/-- **C177**: a complex number is read from its two parts side by side: real and imaginary part written where the getters expect them come back
as single floats do. Missing: that the setters write them there; they do not. -/
theorem C177_complex_get_partial {F} (c : FloatConv F 32) (d : FloatConv F 64) (p : Bytes) (i : U32) (x y : F) :
    (i.toNat + 8 ≤ p.length → i.toNat + 8 ≤ 2 ^ 32 → ∃ p1 p2, setFloat32 c p i x = some p1 ∧ setFloat32 c p1 (i + 4) y = some p2 ∧
      getComplex64 c p2 i = some (c.ofWord (c.toWord x), c.ofWord (c.toWord y))) ∧
    (i.toNat + 16 ≤ p.length → i.toNat + 16 ≤ 2 ^ 32 → ∃ p1 p2, setFloat64 d p i x = some p1 ∧ setFloat64 d p1 (i + 8) y = some p2 ∧
      getComplex128 d p2 i = some (d.ofWord (d.toWord x), d.ofWord (d.toWord y))) := by
  constructor
  · intro hl hw
    have e : (i + 4).toNat = i.toNat + 4 := idx i 4 (by omega)
    obtain ⟨p1, h1, g1, s1, _⟩ := C03_fixed_roundtrip .uint32 p i (c.toWord x) ⟨by simp [Kind.size]; omega, by simp [Kind.size]; omega⟩
    have hl1 := s1.1
    obtain ⟨p2, h2, g2, _, d2⟩ := C03_fixed_roundtrip .uint32 p1 (i + 4) (c.toWord y)
      ⟨by simp only [Kind.size, e]; omega, by simp only [Kind.size, e]; omega⟩
    refine ⟨p1, p2, h1, h2, ?_⟩
    have g3 := d2 .uint32 i ⟨by simp [Kind.size]; omega, by simp [Kind.size]; omega⟩ (Or.inl (by simp only [Kind.size, e]; omega))
    rw [g1] at g3
    simp only [getComplex64, getFloat32, show getUInt32 p2 i = _ from g3, show getUInt32 p2 (i + 4) = _ from g2]
    rfl
  · intro hl hw
    have e : (i + 8).toNat = i.toNat + 8 := idx i 8 (by omega)
    obtain ⟨p1, h1, g1, s1, _⟩ := C03_fixed_roundtrip .uint64 p i (d.toWord x) ⟨by simp [Kind.size]; omega, by simp [Kind.size]; omega⟩
    have hl1 := s1.1
    obtain ⟨p2, h2, g2, _, d2⟩ := C03_fixed_roundtrip .uint64 p1 (i + 8) (d.toWord y)
      ⟨by simp only [Kind.size, e]; omega, by simp only [Kind.size, e]; omega⟩
    refine ⟨p1, p2, h1, h2, ?_⟩
    have g3 := d2 .uint64 i ⟨by simp [Kind.size]; omega, by simp [Kind.size]; omega⟩ (Or.inl (by simp only [Kind.size, e]; omega))
    rw [g1] at g3
    simp only [getComplex128, getFloat64, show getUInt64 p2 i = _ from g3, show getUInt64 p2 (i + 8) = _ from g2]
    rfl

theorem byte_of_get (k : Kind) (p : Bytes) (i : U32) (h : k.Fits p i) (v : BitVec (8 * k.size)) (hg : k.get p i = some v) (j : Nat)
    (hj : j < k.size) : p[i.toNat + j]? = (leDigits k.size v.toNat)[j]? := by
  rw [k.get_eq p i h] at hg
  have hl := region_length p i.toNat k.size h.1
  have hv : leVal (region p i.toNat k.size) = v.toNat := by
    rw [← Option.some.inj hg, BitVec.toNat_ofNat, Nat.mod_eq_of_lt]
    have := leVal_lt (region p i.toNat k.size)
    rw [hl] at this
    rw [Nat.pow_mul]; exact this
  have := leDigits_leVal (region p i.toNat k.size)
  rw [hl, hv] at this
  rw [this]
  exact get_of_region rfl j hj

/-- **C177** for complex numbers is violated on every buffer, for every real part and every imaginary part whose highest byte is not the one
already in the buffer: that byte is never written, and the number does not come back. -/
theorem C177_complex_byte_violated (p : Bytes) (i : U32) (hw : i.toNat + 16 ≤ 2 ^ 32) :
    (∀ x y : U32, i.toNat + 8 ≤ p.length → p[i.toNat + 7]? ≠ some (byteAt y 24) →
      ∃ p', setComplex64 (F := U32) ⟨id, id⟩ p i (x, y) = some p' ∧ p'[i.toNat + 7]? = p[i.toNat + 7]? ∧
        getComplex64 (F := U32) ⟨id, id⟩ p' i ≠ some (x, y)) ∧
    (∀ x y : U64, i.toNat + 16 ≤ p.length → p[i.toNat + 15]? ≠ some (byteAt y 56) →
      ∃ p', setComplex128 (F := U64) ⟨id, id⟩ p i (x, y) = some p' ∧ p'[i.toNat + 15]? = p[i.toNat + 15]? ∧
        getComplex128 (F := U64) ⟨id, id⟩ p' i ≠ some (x, y)) := by
  constructor
  · intro x y hl hne
    have e3 : (i + 3).toNat = i.toNat + 3 := idx i 3 (by omega)
    have e4 : (i + 4).toNat = i.toNat + 4 := idx i 4 (by omega)
    obtain ⟨p1, h1, _, s1, _⟩ := C03_fixed_roundtrip .uint32 p i x ⟨by simp [Kind.size]; omega, by simp [Kind.size]; omega⟩
    obtain ⟨p2, h2, _, s2, _⟩ := C03_fixed_roundtrip .uint32 p1 (i + 3) y
      ⟨by simp only [Kind.size, e3, s1.1]; omega, by simp only [Kind.size, e3]; omega⟩
    have hb : p2[i.toNat + 7]? = p[i.toNat + 7]? := by
      rw [s2.2 _ (Or.inr (by simp only [Kind.size, e3]; omega)), s1.2 _ (Or.inr (by simp only [Kind.size]; omega))]
    refine ⟨p2, ?_, hb, ?_⟩
    · simp only [setComplex64, setFloat32, id]
      rw [show setUInt32 p i x = _ from h1]
      exact h2
    · intro hg
      simp only [getComplex64, getFloat32, Option.bind_eq_bind, Option.bind_eq_some_iff, Option.map_eq_some_iff] at hg
      obtain ⟨_, _, im, ⟨w, hw1, hw2⟩, hz⟩ := hg
      have hwy : w = y := by
        have := congrArg Prod.snd (Option.some.inj hz)
        exact (show w = im from hw2).trans this
      subst hwy
      have := byte_of_get .uint32 p2 (i + 4) ⟨by simp only [Kind.size, e4, s2.1, s1.1]; omega, by simp only [Kind.size, e4]; omega⟩ w hw1 3
        (by simp [Kind.size])
      rw [e4, Nat.add_assoc] at this
      rw [hb] at this
      exact hne (this.trans (congrArg (fun l : Bytes => l[3]?) (digits4 w)))
  · intro x y hl hne
    have e3 : (i + 7).toNat = i.toNat + 7 := idx i 7 (by omega)
    have e4 : (i + 8).toNat = i.toNat + 8 := idx i 8 (by omega)
    obtain ⟨p1, h1, _, s1, _⟩ := C03_fixed_roundtrip .uint64 p i x ⟨by simp [Kind.size]; omega, by simp [Kind.size]; omega⟩
    obtain ⟨p2, h2, _, s2, _⟩ := C03_fixed_roundtrip .uint64 p1 (i + 7) y
      ⟨by simp only [Kind.size, e3, s1.1]; omega, by simp only [Kind.size, e3]; omega⟩
    have hb : p2[i.toNat + 15]? = p[i.toNat + 15]? := by
      rw [s2.2 _ (Or.inr (by simp only [Kind.size, e3]; omega)), s1.2 _ (Or.inr (by simp only [Kind.size]; omega))]
    refine ⟨p2, ?_, hb, ?_⟩
    · simp only [setComplex128, setFloat64, id]
      rw [show setUInt64 p i x = _ from h1]
      exact h2
    · intro hg
      simp only [getComplex128, getFloat64, Option.bind_eq_bind, Option.bind_eq_some_iff, Option.map_eq_some_iff] at hg
      obtain ⟨_, _, im, ⟨w, hw1, hw2⟩, hz⟩ := hg
      have hwy : w = y := by
        have := congrArg Prod.snd (Option.some.inj hz)
        exact (show w = im from hw2).trans this
      subst hwy
      have := byte_of_get .uint64 p2 (i + 8) ⟨by simp only [Kind.size, e4, s2.1, s1.1]; omega, by simp only [Kind.size, e4]; omega⟩ w hw1 7
        (by simp [Kind.size])
      rw [e4, Nat.add_assoc] at this
      rw [hb] at this
      exact hne (this.trans (congrArg (fun l : Bytes => l[7]?) (digits8 w)))

example := (C177_complex_byte_violated (List.replicate 9 1) 1 (by decide)).1 7 9 (by decide) (by decide)
example := (C177_complex_byte_violated (List.replicate 17 1) 1 (by decide)).2 7 9 (by decide) (by decide)

/-- **C177**: the fixed byte array getter returns an empty slice for every buffer, index and length. -/
theorem C177_fixed_array_getter_violated (p : Bytes) (i n : U32) (a : Bytes)
    (h : getFixedByteArray p i n = some a) : a = [] := by
  simp only [getFixedByteArray, goCopy, Option.bind_eq_bind] at h
  cases hs : slice p i.toNat (i + n).toNat with
  | none => rw [hs] at h; cases h
  | some s => rw [hs] at h; simpa using h.symm

example : getFixedByteArray [1, 2, 3] 0 2 = some [] := by decide

/-- **C177** for fixed arrays: the setter does store the array. -/
theorem C177_fixed_array_setter (p a : Bytes) (i : U32) (h : i.toNat + a.length ≤ p.length) :
    ∃ p', setArray p i a = some p' ∧ region p' i.toNat a.length = a ∧
      SameOutside p p' i.toNat (i.toNat + a.length) :=
  ⟨_, onSliceFrom_copy p i.toNat a h, region_overwrite_same p _ a h, sameOutside_overwrite p _ a h⟩

example : setArray [1, 2, 3, 4] 1 [8, 9] = some [1, 8, 9, 4] := by decide

end Memar.Syllab
