import Verif.Convert.Model

/-!
# Properties of the unsafe slice conversions (C111)

The specification is about memory: a memory gives a byte at every address, and a slice of elements of
`w` bytes shows `len` groups of `w` bytes each, one after the other from its address on.
-/

namespace Memar.Convert

/-- Specification: the bytes of element `i` of a slice of `w`-byte elements. -/
def Spec.elem (w : Nat) (mem : Nat → Byte) (h : SliceHeader) (i : Nat) : Bytes :=
  (List.range w).map fun k => mem (h.data + i * w + k)

/-- Specification: what a slice of `w`-byte elements shows, element by element. -/
def Spec.view (w : Nat) (mem : Nat → Byte) (h : SliceHeader) : List Bytes :=
  (List.range h.len).map (Spec.elem w mem h)

/-- Specification: what a byte slice shows. -/
def Spec.bytes (mem : Nat → Byte) (h : SliceHeader) : Bytes :=
  (List.range h.len).map fun k => mem (h.data + k)

/-- Specification: what a string shows. -/
def Spec.text (mem : Nat → Byte) (h : StringHeader) : Bytes :=
  (List.range h.len).map fun k => mem (h.data + k)

/-- Specification: the store of byte `b` at address `a`. -/
def Spec.store (mem : Nat → Byte) (a : Nat) (b : Byte) : Nat → Byte := fun x => if x = a then b else mem x

/-- Specification: every conversion pair with the size of its element in bytes (Go's `unsafe.Sizeof`). -/
def Spec.pairs : List (Nat × (SliceHeader → SliceHeader) × (SliceHeader → SliceHeader)) :=
  [(16, unsafe16ByteArraySliceToByteSlice, unsafeByteSliceTo16ByteArraySlice),
   (32, unsafe32ByteArraySliceToByteSlice, unsafeByteSliceTo32ByteArraySlice),
   (1, unsafeBoolSliceToByteSlice, unsafeByteSliceToBoolSlice),
   (8, unsafeComplex64SliceToByteSlice, unsafeByteSliceToComplex64Slice),
   (16, unsafeComplex128SliceToByteSlice, unsafeByteSliceToComplex128Slice),
   (4, unsafeFloat32SliceToByteSlice, unsafeByteSliceToFloat32Slice),
   (8, unsafeFloat64SliceToByteSlice, unsafeByteSliceToFloat64Slice),
   (1, unsafeUInt8SliceToByteSlice, unsafeByteSliceToUInt8Slice),
   (2, unsafeUInt16SliceToByteSlice, unsafeByteSliceToUInt16Slice),
   (4, unsafeUInt32SliceToByteSlice, unsafeByteSliceToUInt32Slice),
   (8, unsafeUInt64SliceToByteSlice, unsafeByteSliceToUInt64Slice),
   (1, unsafeInt8SliceToByteSlice, unsafeByteSliceToInt8Slice),
   (2, unsafeInt16SliceToByteSlice, unsafeByteSliceToInt16Slice),
   (4, unsafeInt32SliceToByteSlice, unsafeByteSliceToInt32Slice),
   (8, unsafeInt64SliceToByteSlice, unsafeByteSliceToInt64Slice)]

/-- Every conversion to bytes multiplies, every conversion from bytes divides, by the size of the element. -/
theorem pairs_shape : ∀ p ∈ Spec.pairs, 0 < p.1 ∧
    (∀ h, p.2.1 h = ⟨h.data, h.len * p.1, h.cap * p.1⟩) ∧
    (∀ h, p.2.2 h = ⟨h.data, h.len / p.1, h.cap / p.1⟩) := by
  intro p hp
  simp only [Spec.pairs, List.mem_cons, List.not_mem_nil, or_false] at hp
  rcases hp with h | h | h | h | h | h | h | h | h | h | h | h | h | h | h <;> subst h <;>
    refine ⟨by decide, fun h => ?_, fun h => ?_⟩ <;> first | rfl | skip
  all_goals
    simp only [Nat.mul_one, Nat.div_one]
    rfl

theorem range_mul (f : Nat → Byte) (w n : Nat) :
    (List.range (n * w)).map f = ((List.range n).map fun i => (List.range w).map fun k => f (i * w + k)).flatten := by
  induction n with
  | zero => simp
  | succ n ih =>
    rw [Nat.succ_mul, List.range_add, List.map_append, ih, List.range_succ, List.map_append, List.flatten_append]
    simp [Function.comp_def]

/-- **C111**: for every element type, converting a slice to bytes shows exactly the memory of its elements, in order. -/
theorem C111_bytes_view (w : Nat) (to from_ : SliceHeader → SliceHeader) (hp : (w, to, from_) ∈ Spec.pairs)
    (mem : Nat → Byte) (h : SliceHeader) : Spec.bytes mem (to h) = (Spec.view w mem h).flatten := by
  obtain ⟨_, ht, _⟩ := pairs_shape _ hp
  simp only at ht
  rw [ht]
  unfold Spec.bytes Spec.view Spec.elem
  simp only
  rw [range_mul (fun k => mem (h.data + k))]
  simp only [Nat.add_assoc]

example := C111_bytes_view 4 _ _ (by simp [Spec.pairs] : (4, unsafeFloat32SliceToByteSlice, unsafeByteSliceToFloat32Slice) ∈ Spec.pairs)
  (fun a => BitVec.ofNat 8 a) ⟨3, 2, 5⟩

/-- **C111**: for every element type, converting bytes to a slice shows the bytes cut into whole elements; the bytes
after the last whole element are not shown. -/
theorem C111_words_view (w : Nat) (to from_ : SliceHeader → SliceHeader) (hp : (w, to, from_) ∈ Spec.pairs)
    (mem : Nat → Byte) (h : SliceHeader) :
    (Spec.view w mem (from_ h)).flatten = (Spec.bytes mem h).take (h.len / w * w) ∧
    (∀ e ∈ Spec.view w mem (from_ h), e.length = w) := by
  obtain ⟨_, _, hf⟩ := pairs_shape _ hp
  simp only at hf
  rw [hf]
  constructor
  · unfold Spec.bytes Spec.view Spec.elem
    simp only
    rw [← List.map_take, List.take_range, Nat.min_eq_left (Nat.div_mul_le_self _ _),
      range_mul (fun k => mem (h.data + k))]
    simp only [Nat.add_assoc]
  · intro e he
    simp only [Spec.view, List.mem_map] at he
    obtain ⟨i, _, rfl⟩ := he
    simp [Spec.elem]

example := C111_words_view 4 _ _ (by simp [Spec.pairs] : (4, unsafeFloat32SliceToByteSlice, unsafeByteSliceToFloat32Slice) ∈ Spec.pairs)
  (fun a => BitVec.ofNat 8 a) ⟨3, 9, 9⟩

/-- **C111**: converting to bytes and back gives the very same slice. -/
theorem C111_round_trip (w : Nat) (to from_ : SliceHeader → SliceHeader) (hp : (w, to, from_) ∈ Spec.pairs)
    (h : SliceHeader) : from_ (to h) = h := by
  obtain ⟨h0, ht, hf⟩ := pairs_shape _ hp
  simp only at h0 ht hf
  rw [ht, hf]
  simp [Nat.mul_div_cancel _ h0]

example := C111_round_trip 16 _ _
  (by simp [Spec.pairs] : (16, unsafe16ByteArraySliceToByteSlice, unsafeByteSliceTo16ByteArraySlice) ∈ Spec.pairs) ⟨3, 2, 5⟩

/-- **C111**: converting bytes to elements and back gives the same slice exactly when the length and the capacity are
multiples of the element size. -/
theorem C111_back_trip (w : Nat) (to from_ : SliceHeader → SliceHeader) (hp : (w, to, from_) ∈ Spec.pairs)
    (h : SliceHeader) : to (from_ h) = h ↔ w ∣ h.len ∧ w ∣ h.cap := by
  obtain ⟨h0, ht, hf⟩ := pairs_shape _ hp
  simp only at h0 ht hf
  rw [hf, ht]
  obtain ⟨d, l, c⟩ := h
  simp only [SliceHeader.mk.injEq, true_and]
  constructor
  · intro ⟨h1, h2⟩
    exact ⟨⟨l / w, by rw [Nat.mul_comm]; exact h1.symm⟩, ⟨c / w, by rw [Nat.mul_comm]; exact h2.symm⟩⟩
  · intro ⟨h1, h2⟩
    exact ⟨Nat.div_mul_cancel h1, Nat.div_mul_cancel h2⟩

example := C111_back_trip 16 _ _
  (by simp [Spec.pairs] : (16, unsafe16ByteArraySliceToByteSlice, unsafeByteSliceTo16ByteArraySlice) ∈ Spec.pairs) ⟨3, 32, 50⟩

/-- **C111**: no conversion reaches memory outside the slice it was given: it starts at the same address, its whole
capacity lies inside the original capacity, and its length stays within its capacity. -/
theorem C111_inside (w : Nat) (to from_ : SliceHeader → SliceHeader) (hp : (w, to, from_) ∈ Spec.pairs)
    (h : SliceHeader) (hl : h.len ≤ h.cap) :
    ((to h).data = h.data ∧ (to h).cap = h.cap * w ∧ (to h).len ≤ (to h).cap) ∧
    ((from_ h).data = h.data ∧ (from_ h).cap * w ≤ h.cap ∧ (from_ h).len * w ≤ h.len ∧
      (from_ h).len ≤ (from_ h).cap) := by
  obtain ⟨h0, ht, hf⟩ := pairs_shape _ hp
  simp only at h0 ht hf
  rw [hf, ht]
  exact ⟨⟨rfl, rfl, Nat.mul_le_mul_right _ hl⟩, rfl, Nat.div_mul_le_self _ _, Nat.div_mul_le_self _ _,
    Nat.div_le_div_right hl⟩

example := C111_inside 16 _ _
  (by simp [Spec.pairs] : (16, unsafe16ByteArraySliceToByteSlice, unsafeByteSliceTo16ByteArraySlice) ∈ Spec.pairs) ⟨3, 32, 50⟩ (by decide)

/-- **C111**: the two slices share memory: a byte stored at index `i` of the byte slice changes exactly byte `i % w` of
element `i / w` of the other one, and no other element. -/
theorem C111_shared (w : Nat) (to from_ : SliceHeader → SliceHeader) (hp : (w, to, from_) ∈ Spec.pairs)
    (mem : Nat → Byte) (h : SliceHeader) (i : Nat) (b : Byte) :
    Spec.elem w (Spec.store mem ((to h).data + i) b) h (i / w) = (Spec.elem w mem h (i / w)).set (i % w) b ∧
    (∀ j, j ≠ i / w → Spec.elem w (Spec.store mem ((to h).data + i) b) h j = Spec.elem w mem h j) := by
  obtain ⟨h0, ht, _⟩ := pairs_shape _ hp
  simp only at h0 ht
  rw [ht]
  simp only
  have hi : i / w * w + i % w = i := Nat.div_add_mod' i w
  have hm : i % w < w := Nat.mod_lt _ h0
  constructor
  · apply List.ext_getElem
    · simp [Spec.elem]
    · intro k h1 h2
      simp only [Spec.elem, List.length_map, List.length_range] at h1
      rw [List.getElem_set]
      simp only [Spec.elem, List.getElem_map, List.getElem_range, Spec.store]
      by_cases hk : i % w = k
      · rw [if_pos hk, if_pos (by omega)]
      · rw [if_neg hk, if_neg (by omega)]
  · intro j hj
    unfold Spec.elem
    apply List.map_congr_left
    intro k hk
    simp only [List.mem_range] at hk
    unfold Spec.store
    rw [if_neg]
    intro he
    apply hj
    have : i = j * w + k := by omega
    rw [this, Nat.add_comm, Nat.add_mul_div_right _ _ h0, Nat.div_eq_of_lt hk, Nat.zero_add]

example : Spec.bytes (fun a => BitVec.ofNat 8 a) (unsafeUInt16SliceToByteSlice ⟨3, 2, 5⟩) = [3, 4, 5, 6] := by decide
example : Spec.view 2 (fun a => BitVec.ofNat 8 a) (unsafeByteSliceToInt16Slice ⟨3, 5, 5⟩) = [[3, 4], [5, 6]] := by decide
example : unsafeUInt64SliceToByteSlice (unsafeByteSliceToUInt64Slice ⟨0, 9, 9⟩) = ⟨0, 8, 8⟩ := by decide

/-- **C111**: a string and the byte slice made of it show the same bytes, in both directions, and the slice has no spare
capacity to append into. -/
theorem C111_string (mem : Nat → Byte) (s : StringHeader) (h : SliceHeader) :
    Spec.bytes mem (unsafeStringToByteSlice s) = Spec.text mem s ∧
    (unsafeStringToByteSlice s).cap = (unsafeStringToByteSlice s).len ∧
    unsafeByteSliceToString (unsafeStringToByteSlice s) = s ∧
    Spec.text mem (unsafeByteSliceToString h) = Spec.bytes mem h := by
  refine ⟨rfl, rfl, rfl, rfl⟩

/-- C218 violated: a Go string never changes. Here a store of a different byte at any index of the byte slice changes the
string it was made of, and a store into a byte slice changes the string made of it. -/
theorem C218_string_immutable_violated (mem : Nat → Byte) (s : StringHeader) (h : SliceHeader) (i : Nat) (b : Byte) :
    (i < s.len → b ≠ mem (s.data + i) →
      Spec.text (Spec.store mem ((unsafeStringToByteSlice s).data + i) b) s ≠ Spec.text mem s) ∧
    (i < h.len → b ≠ mem (h.data + i) →
      Spec.text (Spec.store mem (h.data + i) b) (unsafeByteSliceToString h) ≠ Spec.text mem (unsafeByteSliceToString h)) := by
  have key : ∀ (d l : Nat), i < l → b ≠ mem (d + i) →
      (List.range l).map (fun k => Spec.store mem (d + i) b (d + k)) ≠ (List.range l).map fun k => mem (d + k) := by
    intro d l hi hb he
    have := congrArg (fun (x : Bytes) => x[i]?) he
    simp [hi, Spec.store] at this
    exact hb this
  exact ⟨fun hi hb => key _ _ hi hb, fun hi hb => key _ _ hi hb⟩

example : Spec.text (Spec.store (fun a => BitVec.ofNat 8 a) 4 9) ⟨3, 2⟩ = [3, 9] := by decide

end Memar.Convert
