import Verif.Net.TcpModel

/-!
# C32, C33: TCP segment accessors
-/

namespace Memar.Net.Tcp
open Memar Net Binary Binary.Spec

/-- The fields that have a byte range of their own. -/
inductive Field
  | sourcePort | destinationPort | sequenceNumber | ackNumber | window | checksum | urgentPointer
deriving DecidableEq, Repr

/-- RFC 793: the width of each field in bits. -/
def Field.width : Field → Nat
  | .sequenceNumber | .ackNumber => 32
  | _ => 16

/-- The accessor of a field. -/
def Field.get : (f : Field) → Bytes → Option (BitVec f.width)
  | .sourcePort => Tcp.sourcePort
  | .destinationPort => Tcp.destinationPort
  | .sequenceNumber => Tcp.sequenceNumber
  | .ackNumber => Tcp.ackNumber
  | .window => Tcp.window
  | .checksum => Tcp.checksum
  | .urgentPointer => Tcp.urgentPointer

/-- The setter of a field. -/
def Field.set : (f : Field) → Bytes → BitVec f.width → Option Bytes
  | .sourcePort => Tcp.setSourcePort
  | .destinationPort => Tcp.setDestinationPort
  | .sequenceNumber => Tcp.setSequenceNumber
  | .ackNumber => Tcp.setAckNumber
  | .window => Tcp.setWindow
  | .checksum => Tcp.setChecksum
  | .urgentPointer => Tcp.setUrgentPointer

/-- RFC 793: the position of each field, in bytes. -/
def Field.start : Field → Nat
  | .sourcePort => 0
  | .destinationPort => 2
  | .sequenceNumber => 4
  | .ackNumber => 8
  | .window => 14
  | .checksum => 16
  | .urgentPointer => 18

/-- C32: each field is the big-endian number at the position RFC 793 gives it. -/
theorem C32_layout (f : Field) (s : Bytes) (h : 20 ≤ s.length) :
    f.get s = some (BitVec.ofNat f.width (beVal (region s f.start (f.width / 8)))) := by
  cases f <;>
    simp only [Field.get, sourcePort, destinationPort, sequenceNumber, ackNumber, window, checksum,
      urgentPointer, Field.start, Field.width] <;>
    first
      | rw [get16_eq, if_pos (by omega)]
      | rw [get32_eq, if_pos (by omega)]

example := C32_layout .ackNumber (List.replicate 24 7#8) (by decide)

theorem set_eq (f : Field) (s : Bytes) (v : BitVec f.width) (h : 20 ≤ s.length) :
    f.set s v = some (overwrite s f.start (beDigits (f.width / 8) v.toNat)) := by
  cases f <;>
    first
      | exact put16_pos _ _ _ (by omega)
      | exact put32_pos _ _ _ (by omega)

theorem start_bound (f : Field) : f.start + f.width / 8 ≤ 20 ∧
    (f.start + f.width / 8 ≤ 12 ∨ 14 ≤ f.start) := by cases f <;> decide

theorem fields_disjoint (f g : Field) (h : f ≠ g) :
    g.start + g.width / 8 ≤ f.start ∨ f.start + f.width / 8 ≤ g.start := by
  revert h; cases f <;> cases g <;> decide

/-- C32: setting a field of a segment of at least the minimum size succeeds, the field then has the
value, and all other fields, the data offset, all flags, the size and everything after the fixed
header are as before. -/
theorem C32_set_field (f : Field) (s : Bytes) (v : BitVec f.width) (h : 20 ≤ s.length) :
    ∃ s', f.set s v = some s' ∧ f.get s' = some v ∧ s'.length = s.length ∧
      (∀ g : Field, g ≠ f → g.get s' = g.get s) ∧
      dataOffset s' = dataOffset s ∧ (∀ k, flag k s' = flag k s) ∧ s'.drop 20 = s.drop 20 := by
  have hb := start_bound f
  have hl := beDigits_length (f.width / 8) v.toNat
  have hlen := overwrite_length s f.start (beDigits (f.width / 8) v.toNat) (by omega)
  refine ⟨_, set_eq f s v h, ?_, hlen, ?_, ?_, ?_, ?_⟩
  · cases f <;> simp only [Field.get, sourcePort, destinationPort, sequenceNumber, ackNumber, window,
      checksum, urgentPointer, Field.start] <;>
      first
        | exact get16_same _ _ _ (by omega)
        | exact get32_same _ _ _ (by omega)
  · intro g hg
    have hd := fields_disjoint f g (Ne.symm hg)
    rw [C32_layout g _ (by omega), C32_layout g _ h,
      region_overwrite_disjoint _ _ _ _ _ (by omega) (by omega)]
  · rw [dataOffset, getElem_disjoint _ _ _ _ (by omega) (by omega), ← dataOffset]
  · intro k
    have hk : k.index = 12 ∨ k.index = 13 := by cases k <;> simp [Flag.index]
    rw [flag, getElem_disjoint _ _ _ _ (by omega) (by omega), ← flag]
  · exact drop_disjoint _ _ _ _ (by omega) (by omega)

example : ∃ s', Field.set .window (List.replicate 20 0xff#8) 0x1234#16 = some s' ∧
    Field.get .window s' = some 0x1234#16 ∧ Field.get .checksum s' = some 0xffff#16 :=
  ⟨_, rfl, by rfl, by rfl⟩

theorem mask_byte (b : Byte) (f g : Flag) (h : f.index = g.index) :
    ((b ||| f.mask) &&& g.mask != 0#8) = (decide (f = g) || (b &&& g.mask != 0#8)) ∧
    ((b &&& ~~~f.mask) &&& g.mask != 0#8) = (!decide (f = g) && (b &&& g.mask != 0#8)) := by
  revert b
  cases f <;> cases g <;> first | (exact absurd h (by decide)) | decide +kernel

theorem mask_offset (b : Byte) (f : Flag) (h : f.index = 12) :
    ((b ||| f.mask) >>> 4) = b >>> 4 ∧ ((b &&& ~~~f.mask) >>> 4) = b >>> 4 := by
  revert b
  cases f <;> first | (exact absurd h (by decide)) | decide +kernel

/-- What a flag change at the right place does to everything else. -/
theorem flag_frame (s : Bytes) (f : Flag) (u : Byte → Byte) (h : 20 ≤ s.length)
    (hu : f.index = 12 → ∀ b : Byte, (u b) >>> 4 = b >>> 4) :
    ∃ s', modAt s f.index u = some s' ∧ s'.length = s.length ∧
      (∀ k : Flag, flag k s' = if k.index = f.index then
        s[f.index]?.map fun b => u b &&& k.mask != 0#8 else flag k s) ∧
      (∀ g : Field, g.get s' = g.get s) ∧ dataOffset s' = dataOffset s ∧
      s'.drop 20 = s.drop 20 := by
  have hi : f.index = 12 ∨ f.index = 13 := by cases f <;> simp [Flag.index]
  have hlt : f.index < s.length := by omega
  have hlen := overwrite_length s f.index [u s[f.index]] (by simp; omega)
  refine ⟨_, modAt_eq s f.index u hlt, hlen, ?_, ?_, ?_, ?_⟩
  · intro k
    split
    · rename_i hk
      rw [flag, hk, getElem_same _ _ _ hlt]
      simp [List.getElem?_eq_getElem hlt]
    · rename_i hk
      rw [flag, getElem_disjoint _ _ _ _ (by simp; omega) (by simp; omega), ← flag]
  · intro g
    have := start_bound g
    rw [C32_layout g _ (by omega), C32_layout g _ h,
      region_overwrite_disjoint _ _ _ _ _ (by simp; omega) (by simp; omega)]
  · rcases hi with hi | hi
    · have e := hu hi
      have h12 : (overwrite s f.index [u s[f.index]])[12]? = some (u s[12]) := by
        have := getElem_same s 12 (u s[12]) (by omega)
        simpa [hi] using this
      rw [dataOffset, h12, dataOffset, List.getElem?_eq_getElem (by omega)]
      simp only [Option.map_some]
      rw [e]
    · rw [dataOffset, getElem_disjoint _ _ _ _ (by simp; omega) (by simp; omega), ← dataOffset]
  · exact drop_disjoint _ _ _ _ (by simp; omega) (by simp; omega)

/-- C32: setting a flag sets it and changes nothing else. -/
theorem C32_set_flag (f : Flag) (s : Bytes) (h : 20 ≤ s.length) :
    ∃ s', setFlag f s = some s' ∧ flag f s' = some true ∧ s'.length = s.length ∧
      (∀ k, k ≠ f → flag k s' = flag k s) ∧ (∀ g : Field, g.get s' = g.get s) ∧
      dataOffset s' = dataOffset s ∧ s'.drop 20 = s.drop 20 := by
  obtain ⟨s', h1, h2, h3, h4, h5, h6⟩ := flag_frame s f (· ||| f.mask) h
    (fun hi b => (mask_offset b f hi).1)
  refine ⟨s', h1, ?_, h2, ?_, h4, h5, h6⟩
  · have hi : f.index = 12 ∨ f.index = 13 := by cases f <;> simp [Flag.index]
    rw [h3, if_pos rfl, List.getElem?_eq_getElem (by omega)]
    simp only [Option.map_some]
    rw [(mask_byte _ f f rfl).1]; simp
  · intro k hk
    rw [h3]
    split
    · rename_i e
      rw [flag, e]
      congr 1; funext b
      rw [(mask_byte b f k e.symm).1]; simp [Ne.symm hk]
    · rfl

example := C32_set_flag .syn (List.replicate 24 0#8) (by decide)

/-- C32: clearing a flag clears it and changes nothing else. -/
theorem C32_unset_flag (f : Flag) (s : Bytes) (h : 20 ≤ s.length) :
    ∃ s', unsetFlag f s = some s' ∧ flag f s' = some false ∧ s'.length = s.length ∧
      (∀ k, k ≠ f → flag k s' = flag k s) ∧ (∀ g : Field, g.get s' = g.get s) ∧
      dataOffset s' = dataOffset s ∧ s'.drop 20 = s.drop 20 := by
  obtain ⟨s', h1, h2, h3, h4, h5, h6⟩ := flag_frame s f (· &&& ~~~f.mask) h
    (fun hi b => (mask_offset b f hi).2)
  refine ⟨s', h1, ?_, h2, ?_, h4, h5, h6⟩
  · have hi : f.index = 12 ∨ f.index = 13 := by cases f <;> simp [Flag.index]
    rw [h3, if_pos rfl, List.getElem?_eq_getElem (by omega)]
    simp only [Option.map_some]
    rw [(mask_byte _ f f rfl).2]; simp
  · intro k hk
    rw [h3]
    split
    · rename_i e
      rw [flag, e]
      congr 1; funext b
      rw [(mask_byte b f k e.symm).2]; simp [Ne.symm hk]
    · rfl

example : flag .syn (List.replicate 20 0#8) = some false ∧
    (setFlag .syn (List.replicate 20 0#8)).bind (flag .syn) = some true ∧
    (setFlag .syn (List.replicate 20 0#8)).bind (flag .ack) = some false := by decide

/-! ## The data offset -/

theorem offset_byte : ∀ n < 16, ∀ m < 16, ∀ lo < 16,
    ((((BitVec.ofNat 8 (4 * n) / 4#8) <<< 4) ||| BitVec.ofNat 8 (16 * m + lo)) >>> 4) * 4#8
      = BitVec.ofNat 8 (4 * (n ||| m)) := by decide +kernel

theorem offset_read : ∀ m < 16, ∀ lo < 16,
    ((BitVec.ofNat 8 (16 * m + lo)) >>> 4) * 4#8 = BitVec.ofNat 8 (4 * m) := by decide +kernel

theorem byte_split (b : Byte) : ∃ m < 16, ∃ lo < 16, b = BitVec.ofNat 8 (16 * m + lo) :=
  ⟨b.toNat / 16, by have := b.isLt; omega, b.toNat % 16, by omega, by
    apply BitVec.eq_of_toNat_eq
    have := b.isLt
    simp; omega⟩

/-- C189: setting the data offset to `4n` where the field holds `4m` leaves `4 (n or m)`. -/
theorem C189_data_offset_accumulates (s : Bytes) (h : 20 ≤ s.length) (n m : Nat) (hn : n < 16)
    (hm : m < 16) (hs : dataOffset s = some (BitVec.ofNat 8 (4 * m))) :
    ∃ s', setDataOffset s (BitVec.ofNat 8 (4 * n)) = some s' ∧
      dataOffset s' = some (BitVec.ofNat 8 (4 * (n ||| m))) := by
  refine ⟨_, modAt_eq s 12 _ (by omega), ?_⟩
  obtain ⟨m', hm', lo, hlo, e⟩ := byte_split s[12]
  have hmm : m' = m := by
    rw [dataOffset, List.getElem?_eq_getElem (by omega), Option.map_some, e,
      offset_read m' hm' lo hlo] at hs
    have := congrArg BitVec.toNat (Option.some.inj hs)
    simp at this; omega
  rw [dataOffset, getElem_same _ _ _ (by omega), Option.map_some, e, offset_byte n hn m' hm' lo hlo,
    hmm]

example := C189_data_offset_accumulates (List.replicate 12 7#8 ++ 0x50#8 :: List.replicate 20 7#8) (by decide) 10 5 (by decide) (by decide)
  (by decide +kernel)

/-- C189, for a header whose data offset is zero: the data offset round-trips.
Missing: headers whose offset or flags were set before (refuted: `C189_data_offset_violated`,
`C189_flag_part_one_violated`). -/
theorem C189_data_offset_partial (s : Bytes) (h : 20 ≤ s.length) (n : Nat) (hn : n < 16)
    (hs : dataOffset s = some 0#8) :
    ∃ s', setDataOffset s (BitVec.ofNat 8 (4 * n)) = some s' ∧
      dataOffset s' = some (BitVec.ofNat 8 (4 * n)) := by
  have := C189_data_offset_accumulates s h n 0 hn (by decide) hs
  simpa using this

example := C189_data_offset_partial (List.replicate 12 7#8 ++ 0#8 :: List.replicate 20 7#8) (by decide) 10 (by decide) (by decide +kernel)

/-- C189 is violated: on a segment with a data offset, setting a smaller one is without effect, for
every pair of which the new one is the smaller. -/
theorem C189_data_offset_violated (s : Bytes) (h : 20 ≤ s.length) (n m : Nat)
    (hm : m < 16) (hlt : n < m) (hs : dataOffset s = some (BitVec.ofNat 8 (4 * m))) :
    ∃ s', setDataOffset s (BitVec.ofNat 8 (4 * n)) = some s' ∧
      dataOffset s' ≠ some (BitVec.ofNat 8 (4 * n)) := by
  obtain ⟨s', h1, h2⟩ := C189_data_offset_accumulates s h n m (by omega) hm hs
  refine ⟨s', h1, ?_⟩
  rw [h2]
  intro e
  have h3 := congrArg BitVec.toNat (Option.some.inj e)
  have h4 : n ||| m < 16 := Nat.or_lt_two_pow (n := 4) (by omega) (by omega)
  have h5 : m ≤ n ||| m := Nat.right_le_or
  simp at h3
  omega

example := C189_data_offset_violated (List.replicate 12 7#8 ++ 0xf0#8 :: List.replicate 60 7#8) (by decide) 10 15 (by decide) (by decide)
  (by decide +kernel)

/-- C189 is violated: the setter of the first flag byte cannot clear a flag and changes the data
offset when the argument has high bits. -/
theorem C189_flag_part_one_violated (s : Bytes) (h : 20 ≤ s.length) (flags : Byte) :
    ∃ s', setFlagPartOne s flags = some s' ∧
      (∀ f : Flag, f.index = 12 → flag f s = some true → flag f s' = some true) := by
  refine ⟨_, modAt_eq s 12 _ (by omega), ?_⟩
  intro f hf hs
  rw [flag, hf, List.getElem?_eq_getElem (by omega), Option.map_some] at hs
  rw [flag, hf, getElem_same _ _ _ (by omega), Option.map_some]
  have h1 := Option.some.inj hs
  congr 1
  simp only [bne_iff_ne, ne_eq] at h1 ⊢
  intro h2
  apply h1
  have h3 : s[12] &&& f.mask = (s[12] &&& f.mask) &&& ((s[12] ||| flags) &&& f.mask) := by
    ext i hi
    simp
    grind
  rw [h3, h2]; simp

example := C189_flag_part_one_violated (List.replicate 24 7#8) (by decide) 0

/-! ## Checked segments -/

/-- C33: on every byte string the check itself does not panic, and says exactly whether the header
is complete and the data offset within the segment. -/
theorem C33_check (s : Bytes) :
    (checkSegment s = some .ok ↔ 20 ≤ s.length ∧ ∀ d, dataOffset s = some d → d.toNat ≤ s.length) ∧
    checkSegment s ≠ none := by
  unfold checkSegment minSize
  by_cases h : s.length < 20
  · rw [if_pos h]; simp; omega
  · rw [if_neg h, dataOffset, List.getElem?_eq_getElem (by omega)]
    simp
    omega

/-- C33: on a checked segment all fields, flags and the payload can be read without a panic. -/
theorem C33_checked_reads (s : Bytes) (h : checkSegment s = some .ok) :
    (∀ f : Field, f.get s ≠ none) ∧ (∀ f, flag f s ≠ none) ∧ dataOffset s ≠ none ∧
    ∃ d, dataOffset s = some d ∧ payload s = some (s.drop d.toNat) := by
  obtain ⟨h1, h2⟩ := (C33_check s).1.1 h
  refine ⟨?_, ?_, ?_, ?_⟩
  · intro f; rw [C32_layout f s h1]; simp
  · intro f
    have hi : f.index = 12 ∨ f.index = 13 := by cases f <;> simp [Flag.index]
    rw [flag, List.getElem?_eq_getElem (by omega)]; simp
  · rw [dataOffset, List.getElem?_eq_getElem (by omega)]; simp
  · have h3 : dataOffset s = some ((s[12] >>> 4) * 4#8) := by
      rw [dataOffset, List.getElem?_eq_getElem (by omega)]; rfl
    refine ⟨_, h3, ?_⟩
    have := h2 _ h3
    simp [payload, h3, sliceFrom]
    simpa using this

example := C33_checked_reads (List.replicate 12 7#8 ++ 0x50#8 :: List.replicate 20 7#8) (by decide +kernel)

/-- C190 is violated: a segment whose data offset is below the fixed header passes the check, and
reading its options panics. -/
theorem C190_small_offset_violated (s : Bytes) (h : 20 ≤ s.length) (d : U8)
    (hd : dataOffset s = some d) (hlt : d.toNat < 20) :
    checkSegment s = some .ok ∧ options s = none := by
  refine ⟨(C33_check s).1.2 ⟨h, fun d' hd' => ?_⟩, ?_⟩
  · rw [hd] at hd'; cases hd'; omega
  · simp [options, hd, slice]; omega

example : checkSegment (List.replicate 20 0#8) = some .ok ∧
    options (List.replicate 20 0#8) = none := by decide

/-- C190: with a data offset of at least the fixed header a checked segment is the fixed header, the
options and the payload.
Missing: data offsets below the fixed header (refuted: `C190_small_offset_violated`). -/
theorem C190_options_partial (s : Bytes) (h : checkSegment s = some .ok) (d : U8)
    (hd : dataOffset s = some d) (hge : 20 ≤ d.toNat) :
    ∃ o p, options s = some o ∧ payload s = some p ∧ s = s.take 20 ++ o ++ p := by
  obtain ⟨h1, h2⟩ := (C33_check s).1.1 h
  have h3 := h2 d hd
  refine ⟨(s.take d.toNat).drop 20, s.drop d.toNat, ?_, ?_, ?_⟩
  · simp [options, hd, slice, hge, h3]
  · simp [payload, hd, sliceFrom, h3]
  · have h4 : s.take 20 = (s.take d.toNat).take 20 := by
      rw [List.take_take, Nat.min_eq_left hge]
    rw [h4, List.take_append_drop, List.take_append_drop]

example : checkSegment ((List.replicate 12 0#8) ++ [0x60#8] ++ List.replicate 13 7#8) = some .ok ∧
    options ((List.replicate 12 0#8) ++ [0x60#8] ++ List.replicate 13 7#8)
      = some [7#8, 7#8, 7#8, 7#8] ∧
    payload ((List.replicate 12 0#8) ++ [0x60#8] ++ List.replicate 13 7#8)
      = some [7#8, 7#8] := by decide

/-- C190: storing a payload that fits and reading it gives the payload back in front of what was
there, and keeps the header.
Missing: data offsets below the fixed header (refuted: `C190_small_offset_violated`). -/
theorem C190_payload_roundtrip_partial (s : Bytes) (p : Bytes) (d : U8)
    (hd : dataOffset s = some d) (hge : 20 ≤ d.toNat) (hfit : d.toNat + p.length ≤ s.length) :
    ∃ s', setPayload s p = some s' ∧ payload s' = some (p ++ s.drop (d.toNat + p.length)) ∧
      s'.take d.toNat = s.take d.toNat := by
  have hlen := overwrite_length s d.toNat p hfit
  have hd' : dataOffset (overwrite s d.toNat p) = some d := by
    rw [dataOffset, getElem_disjoint _ _ _ _ hfit (by omega), ← dataOffset, hd]
  refine ⟨overwrite s d.toNat p, ?_, ?_, take_disjoint _ _ _ _ hfit (by omega)⟩
  · simp [setPayload, hd, putArr_eq _ _ _ hfit]
  · simp only [payload, hd', Option.bind_some, sliceFrom, hlen, if_pos (show d.toNat ≤ s.length by omega)]
    congr 1
    simp only [overwrite, List.append_assoc]
    exact List.drop_left' (by simp; omega)

example := C190_payload_roundtrip_partial (List.replicate 12 7#8 ++ 0x50#8 :: List.replicate 20 7#8) [1, 2, 3] 20 (by decide +kernel)
  (by decide) (by decide)

end Memar.Net.Tcp
