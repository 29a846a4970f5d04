import Verif.Net.FrameFields
import Verif.Syllab.Props
import Verif.Net.TcpProps

/-!
# Properties of the fields of frames (C139)
-/

namespace Memar.Net.Frames
open Memar Binary Binary.Spec Net

namespace FSpec

/-- The frames as their documentation lays them out; numbers are little endian in sRPC frames and big endian in the others. -/
def callFrame (service compress time : U64) (payload : Bytes) : Bytes :=
  leDigits 2 (26 + payload.length) ++ leDigits 8 service.toNat ++ leDigits 8 compress.toNat ++ leDigits 8 time.toNat ++ payload
/-- Stream and error identifier. -/
def errorFrame (stream error : U64) : Bytes := leDigits 8 stream.toNat ++ leDigits 8 error.toNat
/-- Length and padding. -/
def paddingFrame (padding : Bytes) : Bytes := beDigits 2 (2 + padding.length) ++ padding
/-- Length, stream identifier, offset in eight bytes, and payload. -/
def dataFrame (stream offset : U64) (payload : Bytes) : Bytes :=
  beDigits 2 (18 + payload.length) ++ beDigits 8 stream.toNat ++ beDigits 8 offset.toNat ++ payload
/-- Handler, service and compression identifiers, data length and weight. -/
def openFrame (handler service compress length : U64) (weight : Byte) : Bytes :=
  leDigits 8 handler.toNat ++ leDigits 8 service.toNat ++ leDigits 8 compress.toNat ++ leDigits 8 length.toNat ++ [weight]

end FSpec
open FSpec

theorem region_mid (pre mid post : Bytes) (n : Nat) (h : mid.length = n) : region (pre ++ mid ++ post) pre.length n = mid := by
  subst h
  simp [region, List.append_assoc]

theorem le_length (n v : Nat) : (leDigits n v).length = n := leDigits_length n v

theorem get64_mid (pre post : Bytes) (v : U64) (i : U32) (hi : i.toNat = pre.length) (hf : pre.length + 8 ≤ 2 ^ 32) :
    Syllab.getUInt64 (pre ++ leDigits 8 v.toNat ++ post) i = some v := by
  have := Syllab.Kind.get_eq .uint64 (pre ++ leDigits 8 v.toNat ++ post) i ⟨by simp [Syllab.Kind.size, hi, leDigits_length], by rw [hi]; exact hf⟩
  simp only [Syllab.Kind.get, Syllab.Kind.size] at this
  rw [this, hi, region_mid _ _ _ 8 (leDigits_length 8 _), leVal_leDigits]
  congr 1
  apply BitVec.eq_of_toNat_eq
  have := v.isLt
  simp only [BitVec.toNat_ofNat]; omega

theorem geti64_mid (pre post : Bytes) (v : U64) (i : U32) (hi : i.toNat = pre.length) (hf : pre.length + 8 ≤ 2 ^ 32) :
    Syllab.getInt64 (pre ++ leDigits 8 v.toNat ++ post) i = some v := by
  have := Syllab.Kind.get_eq .int64 (pre ++ leDigits 8 v.toNat ++ post) i ⟨by simp [Syllab.Kind.size, hi, leDigits_length], by rw [hi]; exact hf⟩
  simp only [Syllab.Kind.get, Syllab.Kind.size] at this
  rw [this, hi, region_mid _ _ _ 8 (leDigits_length 8 _), leVal_leDigits]
  congr 1
  apply BitVec.eq_of_toNat_eq
  have := v.isLt
  simp only [BitVec.toNat_ofNat]; omega

theorem len_le (n : Nat) (post : Bytes) (h : n < 65536) : ∃ l : U16, length16le (leDigits 2 n ++ post) = some l ∧ l.toNat = n := by
  have := Syllab.Kind.get_eq .uint16 ([] ++ leDigits 2 n ++ post) 0#32 ⟨by simp [Syllab.Kind.size, leDigits_length], by simp [Syllab.Kind.size]⟩
  simp only [Syllab.Kind.get, Syllab.Kind.size] at this
  refine ⟨BitVec.ofNat 16 n, ?_, by simp; omega⟩
  rw [length16le]
  rw [List.nil_append] at this
  rw [this]
  have hr := region_mid [] (leDigits 2 n) post 2 (leDigits_length 2 _)
  rw [List.nil_append] at hr
  show some (BitVec.ofNat 16 (leVal (region (leDigits 2 n ++ post) 0 2))) = _
  rw [show (0 : Nat) = ([] : Bytes).length from rfl, hr, leVal_leDigits]
  congr 1
  apply BitVec.eq_of_toNat_eq
  simp only [BitVec.toNat_ofNat]; omega

theorem len_be (n : Nat) (post : Bytes) (h : n < 65536) : ∃ l : U16, length16be (beDigits 2 n ++ post) = some l ∧ l.toNat = n := by
  refine ⟨BitVec.ofNat 16 n, ?_, by simp; omega⟩
  have hr := region_mid [] (beDigits 2 n) post 2 (beDigits_length 2 _)
  rw [List.nil_append] at hr
  show get16 (beDigits 2 n ++ post) 0 = _
  rw [get16_eq, if_pos (by simp [beDigits_length]), show (0 : Nat) = ([] : Bytes).length from rfl, hr, beVal_beDigits]
  congr 1
  apply BitVec.eq_of_toNat_eq
  simp only [BitVec.toNat_ofNat]; omega

theorem slice_mid (pre mid post : Bytes) (a b : Nat) (ha : a = pre.length) (hb : b = pre.length + mid.length) :
    slice (pre ++ mid ++ post) a b = some mid := by
  subst ha hb
  rw [slice, if_pos ⟨by omega, by simp⟩, List.take_left' (by simp), List.drop_left' rfl]

theorem sliceFrom_mid (pre post : Bytes) (a : Nat) (ha : a = pre.length) : sliceFrom (pre ++ post) a = some post := by
  subst ha
  rw [sliceFrom, if_pos (by simp), List.drop_left' rfl]

/-! ## C139 -/

/-- C139: of a call service frame every field reads back as it was written, and behind it stands the next frame. -/
theorem C139_call (service compress time : U64) (payload next : Bytes) (h : 26 + payload.length < 65536) :
    (length16le (callFrame service compress time payload ++ next)).map BitVec.toNat = some (26 + payload.length) ∧
    callServiceID (callFrame service compress time payload ++ next) = some service ∧
    callCompressID (callFrame service compress time payload ++ next) = some compress ∧
    callTime (callFrame service compress time payload ++ next) = some time ∧
    callPayload (callFrame service compress time payload ++ next) = some payload ∧
    nextLe (callFrame service compress time payload ++ next) = some next := by
  have l2 := leDigits_length 2 (26 + payload.length)
  have l8 := fun v : U64 => leDigits_length 8 v.toNat
  obtain ⟨l, h1, h2⟩ := len_le (26 + payload.length)
    (leDigits 8 service.toNat ++ leDigits 8 compress.toNat ++ leDigits 8 time.toNat ++ payload ++ next) h
  have e : callFrame service compress time payload ++ next =
      leDigits 2 (26 + payload.length) ++ (leDigits 8 service.toNat ++ leDigits 8 compress.toNat ++ leDigits 8 time.toNat ++ payload ++ next) := by
    simp [callFrame]
  refine ⟨by rw [e, h1]; simp [h2], ?_, ?_, ?_, ?_, ?_⟩
  · have := get64_mid (leDigits 2 (26 + payload.length)) (leDigits 8 compress.toNat ++ leDigits 8 time.toNat ++ payload ++ next) service 2#32
      (by rw [l2]; rfl) (by omega)
    simpa [callServiceID, callFrame] using this
  · have := get64_mid (leDigits 2 (26 + payload.length) ++ leDigits 8 service.toNat) (leDigits 8 time.toNat ++ payload ++ next) compress 10#32
      (by simp [l2, l8]) (by simp [l2, l8])
    simpa [callCompressID, callFrame] using this
  · have := geti64_mid (leDigits 2 (26 + payload.length) ++ leDigits 8 service.toNat ++ leDigits 8 compress.toNat) (payload ++ next) time 18#32
      (by simp [l2, l8]) (by simp [l2, l8])
    simpa [callTime, callFrame] using this
  · rw [callPayload, e, h1, Option.bind_some]
    have := slice_mid (leDigits 2 (26 + payload.length) ++ leDigits 8 service.toNat ++ leDigits 8 compress.toNat ++ leDigits 8 time.toNat) payload next
      26 l.toNat (by simp [l2, l8]) (by simp [l2, l8, h2])
    simpa using this
  · rw [nextLe, e, h1, Option.bind_some, ← e]
    exact sliceFrom_mid _ next _ (by simp [callFrame, l2, l8, h2]; omega)

example := C139_call 7 8 9 (bs "payload") [1, 2] (by decide)

/-- C139: of an error frame both identifiers read back, behind it stands the next frame, and handling it for a socket sets the error that is known by
the identifier. -/
theorem C139_error {E : Type} (byID : U64 → Option E) (old : Option E) (stream error : U64) (next : Bytes) :
    errorStreamID (errorFrame stream error ++ next) = some stream ∧ errorID (errorFrame stream error ++ next) = some error ∧
    nextError (errorFrame stream error ++ next) = some next ∧
    errorDo byID (errorFrame stream error ++ next) (some old) = some (some (byID error)) := by
  have l8 := fun v : U64 => leDigits_length 8 v.toNat
  have h2 : errorID (errorFrame stream error ++ next) = some error := by
    have := get64_mid (leDigits 8 stream.toNat) next error 8#32 (by simp [l8]) (by simp [l8])
    simpa [errorID, errorFrame] using this
  refine ⟨?_, h2, ?_, by rw [errorDo, h2]; rfl⟩
  · have := get64_mid [] (leDigits 8 error.toNat ++ next) stream 0#32 rfl (by simp)
    simpa [errorStreamID, errorFrame] using this
  · exact sliceFrom_mid _ next _ (by simp [errorFrame, l8])

/-- C139: padding frames are skipped whole. -/
theorem C139_padding (padding next : Bytes) (h : 2 + padding.length < 65536) :
    paddingPayload (paddingFrame padding ++ next) = some padding ∧ nextBe (paddingFrame padding ++ next) = some next := by
  have l2 := beDigits_length 2 (2 + padding.length)
  obtain ⟨l, h1, h2⟩ := len_be (2 + padding.length) (padding ++ next) h
  have e : paddingFrame padding ++ next = beDigits 2 (2 + padding.length) ++ (padding ++ next) := by simp [paddingFrame]
  constructor
  · rw [paddingPayload, e, h1, Option.bind_some, ← List.append_assoc]
    exact slice_mid _ padding next 2 l.toNat (by rw [l2]) (by omega)
  · rw [nextBe, e, h1, Option.bind_some, ← e]
    exact sliceFrom_mid _ next _ (by simp [paddingFrame, l2, h2])

example := C139_padding [0, 0, 0] [1, 2] (by decide)

theorem be64_mid (pre post : Bytes) (v : U64) (i : Nat) (hi : i = pre.length) :
    (sliceFrom (pre ++ beDigits 8 v.toNat ++ post) i).bind BE.uint64 = some v := by
  rw [List.append_assoc, sliceFrom_mid pre _ i hi, Option.bind_some, C01_be64_load, if_pos (by simp [beDigits_length]),
    List.take_left' (beDigits_length 8 _), beVal_beDigits]
  congr 1
  apply BitVec.eq_of_toNat_eq
  have := v.isLt
  simp only [BitVec.toNat_ofNat]; omega

/-- C229: of a data frame the length, the stream and the payload read back, and behind it stands the next frame. Missing: the offset. -/
theorem C229_data_partial (stream offset : U64) (payload next : Bytes) (h : 18 + payload.length < 65536) :
    dataStreamID (dataFrame stream offset payload ++ next) = some stream ∧ dataPayload (dataFrame stream offset payload ++ next) = some payload ∧
    nextBe (dataFrame stream offset payload ++ next) = some next := by
  have l2 := beDigits_length 2 (18 + payload.length)
  have l8 := fun v : U64 => beDigits_length 8 v.toNat
  obtain ⟨l, h1, h2⟩ := len_be (18 + payload.length) (beDigits 8 stream.toNat ++ beDigits 8 offset.toNat ++ payload ++ next) h
  have e : dataFrame stream offset payload ++ next =
      beDigits 2 (18 + payload.length) ++ (beDigits 8 stream.toNat ++ beDigits 8 offset.toNat ++ payload ++ next) := by simp [dataFrame]
  refine ⟨?_, ?_, ?_⟩
  · have := be64_mid (beDigits 2 (18 + payload.length)) (beDigits 8 offset.toNat ++ payload ++ next) stream 2 l2.symm
    simpa [dataStreamID, dataFrame] using this
  · rw [dataPayload, e, h1, Option.bind_some]
    have := slice_mid (beDigits 2 (18 + payload.length) ++ beDigits 8 stream.toNat ++ beDigits 8 offset.toNat) payload next 18 l.toNat
      (by simp [l2, l8]) (by simp [l2, l8, h2])
    simpa using this
  · rw [nextBe, e, h1, Option.bind_some, ← e]
    exact sliceFrom_mid _ next _ (by simp [dataFrame, l2, l8, h2]; omega)

example := C229_data_partial 7 8 (bs "payload") [1, 2] (by decide)

theorem be8_split (v : Nat) : beDigits 8 v = beDigits 4 (v / 4294967296) ++ beDigits 4 v := by
  simp [beDigits, leDigits, Nat.div_div_eq_div_mul]

/-- C229 violated: the offset of a data frame has eight bytes and only the upper four are read. Every offset below 4 GiB is read as 0, so that all the
payloads of a stream seem to belong at its beginning. -/
theorem C229_offset_violated (stream offset : U64) (payload next : Bytes) :
    (dataOffset (dataFrame stream offset payload ++ next)).map BitVec.toNat = some (offset.toNat / 4294967296) := by
  have l2 := beDigits_length 2 (18 + payload.length)
  have l8 := fun v : U64 => beDigits_length 8 v.toNat
  have l4 := fun v : Nat => beDigits_length 4 v
  have e : dataFrame stream offset payload ++ next = (beDigits 2 (18 + payload.length) ++ beDigits 8 stream.toNat) ++
      beDigits 4 (offset.toNat / 4294967296) ++ (beDigits 4 offset.toNat ++ payload ++ next) := by
    simp [dataFrame, be8_split offset.toNat]
  have hp : (beDigits 2 (18 + payload.length) ++ beDigits 8 stream.toNat).length = 10 := by simp [l2, l8]
  rw [dataOffset, get32_eq, if_pos (by rw [e]; simp [l2, l8, l4]; omega), e]
  have := region_mid (beDigits 2 (18 + payload.length) ++ beDigits 8 stream.toNat) (beDigits 4 (offset.toNat / 4294967296))
    (beDigits 4 offset.toNat ++ payload ++ next) 4 (l4 _)
  rw [hp] at this
  rw [this, beVal_beDigits]
  have := offset.isLt
  simp only [Option.map_some, BitVec.toNat_ofNat]
  congr 1
  omega

/-- C229 violated: the data of a data frame goes nowhere: whatever data frames a socket gets, it has no more data than before and is never scheduled. -/
theorem C229_data_lost_violated (fs : List Bytes) (sk : DataSocket) : fs.foldl (fun s f => dataProcess f s) sk = sk := by
  induction fs with
  | nil => rfl
  | cons f fs ih => rw [List.foldl_cons]; exact ih

theorem le64_at (f : Bytes) (i : Nat) (v : U64) (h : (sliceFrom f i).bind LE.uint64 = some v) :
    i + 8 ≤ f.length ∧ v.toNat = leVal ((f.drop i).take 8) := by
  rw [sliceFrom] at h
  split at h
  · rw [Option.bind_some, C01_le64_load] at h
    split at h
    · rename_i h1 h2
      rw [List.length_drop] at h2
      refine ⟨by omega, ?_⟩
      injection h with h
      subst h
      have := leVal_lt ((f.drop i).take 8)
      rw [List.length_take, List.length_drop, Nat.min_eq_left (by omega)] at this
      rw [BitVec.toNat_ofNat]
      exact Nat.mod_eq_of_lt (by omega)
    · simp at h
  · simp at h

/-- C229 violated: the fields of an open stream frame overlap. Whatever the frame is, the lower six bytes of the service identifier are the upper six of
the handler identifier, and the weight is the seventh byte of the data length: no frame can be made for a handler and a service that differ in them. -/
theorem C229_open_violated (f : Bytes) (handler service length : U64) (h1 : openHandlerID f = some handler) (h2 : openServiceID f = some service)
    (h3 : openDataLength f = some length) (weight : Byte) (h4 : openWeight f = some weight) :
    handler.toNat / 65536 = service.toNat % 281474976710656 ∧ length.toNat / 281474976710656 % 256 = weight.toNat := by
  obtain ⟨-, e1⟩ := le64_at f 0 handler h1
  obtain ⟨-, e2⟩ := le64_at f 2 service h2
  obtain ⟨hl, e3⟩ := le64_at f 18 length h3
  have g : ∀ i, i + 8 ≤ f.length → ∃ b0 b1 b2 b3 b4 b5 b6 b7 r, f.drop i = b0 :: b1 :: b2 :: b3 :: b4 :: b5 :: b6 :: b7 :: r := by
    intro i hi
    exact eight_of_length (by simp; omega)
  constructor
  · obtain ⟨b0, b1, b2, b3, b4, b5, b6, b7, r, hr⟩ := g 0 (by omega)
    obtain ⟨c0, c1, c2, c3, c4, c5, c6, c7, r', hr'⟩ := g 2 (by omega)
    have : f.drop 2 = (f.drop 0).drop 2 := by simp
    rw [hr, hr'] at this
    simp only [List.drop_succ_cons, List.drop_zero, List.cons.injEq] at this
    obtain ⟨rfl, rfl, rfl, rfl, rfl, rfl, -⟩ := this
    rw [hr] at e1; rw [hr'] at e2
    simp only [List.take_succ_cons, List.take_zero, leVal] at e1 e2
    rw [e1, e2]
    have := b0.isLt; have := b1.isLt; have := c0.isLt; have := c1.isLt; have := c2.isLt; have := c3.isLt; have := c4.isLt; have := c5.isLt
    have := c6.isLt; have := c7.isLt
    omega
  · obtain ⟨c0, c1, c2, c3, c4, c5, c6, c7, r', hr'⟩ := g 18 (by omega)
    have hw : weight = c6 := by
      have : f[24]? = (f.drop 18)[6]? := by simp
      rw [openWeight, this, hr'] at h4
      simpa using h4.symm
    subst hw
    rw [hr'] at e3
    simp only [List.take_succ_cons, List.take_zero, leVal] at e3
    rw [e3]
    have := c0.isLt; have := c1.isLt; have := c2.isLt; have := c3.isLt; have := c4.isLt; have := c5.isLt
    have := weight.isLt; have := c7.isLt
    omega

example := C229_open_violated ((List.range 26).map (BitVec.ofNat 8)) 0x0706050403020100 0x0908070605040302 0x1918171615141312
  (by decide +kernel) (by decide +kernel) (by decide +kernel) 24 (by decide +kernel)

/-- C229 violated: an open stream frame as documented has 33 bytes, and the next frame is looked for after 25. -/
theorem C229_open_next_violated (handler service compress length : U64) (weight : Byte) (next : Bytes) :
    ∃ r : Bytes, nextOpen (openFrame handler service compress length weight ++ next) = some (r ++ next) ∧ r.length = 8 := by
  have l8 := fun v : U64 => leDigits_length 8 v.toNat
  have hl : (openFrame handler service compress length weight).length = 33 := by simp [openFrame, l8]
  refine ⟨(openFrame handler service compress length weight).drop 25, ?_, by simp [hl]⟩
  rw [nextOpen, sliceFrom, if_pos (by simp only [List.length_append, hl]; omega), List.drop_append_of_le_length (by omega)]

/-- C229: the handler of an open stream frame as documented reads back. Missing: all the other fields. -/
theorem C229_open_partial (handler service compress length : U64) (weight : Byte) (next : Bytes) :
    openHandlerID (openFrame handler service compress length weight ++ next) = some handler := by
  have l8 := leDigits_length 8 handler.toNat
  rw [openHandlerID, sliceFrom, if_pos (by simp), List.drop_zero, Option.bind_some, C01_le64_load,
    if_pos (by simp only [openFrame, List.length_append, l8]; omega)]
  simp only [openFrame, List.append_assoc]
  rw [List.take_left' l8, leVal_leDigits]
  congr 1
  apply BitVec.eq_of_toNat_eq
  have := handler.isLt
  simp only [BitVec.toNat_ofNat]; omega

/-- C229 violated: a signature frame has a length and a signature of any size, and the next frame is looked for after eight bytes whatever the length
is: only behind frames of eight bytes is it found. -/
theorem C229_signature_violated (frame next : Bytes) (h : 8 ≤ frame.length) : nextSignature (frame ++ next) = some next ↔ frame.length = 8 := by
  rw [nextSignature, sliceFrom, if_pos (by simp; omega), Option.some.injEq]
  constructor
  · intro e
    have := congrArg List.length e
    simp at this
    omega
  · intro e
    exact List.drop_left' e

example := C229_signature_violated (List.replicate 72 7#8) [1, 2] (by decide)

/-- C229 violated: a frame whose length is below that of its header makes reading the payload panic. -/
theorem C229_short_length_violated (f : Bytes) (n : U16) :
    (length16le f = some n → n.toNat < 26 → callPayload f = none) ∧ (length16be f = some n → n.toNat < 18 → dataPayload f = none) ∧
    (length16be f = some n → n.toNat < 2 → paddingPayload f = none) := by
  refine ⟨fun h hn => ?_, fun h hn => ?_, fun h hn => ?_⟩
  · rw [callPayload, h, Option.bind_some, slice, if_neg (by omega)]
  · rw [dataPayload, h, Option.bind_some, slice, if_neg (by omega)]
  · rw [paddingPayload, h, Option.bind_some, slice, if_neg (by omega)]

/-! ## Examples -/

example : callFrame 7 1 5 [9, 8] = [28, 0, 7, 0, 0, 0, 0, 0, 0, 0, 1, 0, 0, 0, 0, 0, 0, 0, 5, 0, 0, 0, 0, 0, 0, 0, 9, 8] := by decide
example : callPayload (callFrame 7 1 5 [9, 8] ++ [4]) = some [9, 8] := by decide
example : dataOffset (dataFrame 7 1000 [9, 8]) = some 0 := by decide
example : openHandlerID (openFrame 7 9 0 4 2) = some 7 ∧ openServiceID (openFrame 7 9 0 4 2) = some (9 * 281474976710656) ∧
    openDataLength (openFrame 7 9 0 4 2) = some (4 * 281474976710656) ∧ openWeight (openFrame 7 9 0 4 2) = some 4 := by decide
example : nextSignature (List.replicate 34 1 ++ [2]) = some (List.replicate 26 1 ++ [2]) := by decide

end Memar.Net.Frames
