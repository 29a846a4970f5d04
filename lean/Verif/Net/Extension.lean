import Verif.Net.FrameFieldsProps

/-!
# The routing extension header of IPv6 (net/ipv6/extension-routing.go) and the identifier of signature frames

`none` is a panic. Lengths in the header are bytes, and `8 + er.Length()` is computed in a byte.
-/

namespace Memar.Net.Extension
open Memar Binary Binary.Spec Net

/-- net/ipv6/extension-routing.go:18 -/
def nextHeader (er : Bytes) : Option Byte := er[0]?
/-- net/ipv6/extension-routing.go:19 -/
def length (er : Bytes) : Option Byte := er[1]?
/-- net/ipv6/extension-routing.go:20 -/
def routingType (er : Bytes) : Option Byte := er[2]?
/-- net/ipv6/extension-routing.go:21 -/
def segmentsLeft (er : Bytes) : Option Byte := er[3]?
/-- net/ipv6/extension-routing.go:22: four bytes, zero where the header is too short. -/
def typeSpecificData (er : Bytes) : Option Bytes := (sliceFrom er 4).map (goCopy (List.replicate 4 0#8))
/-- net/ipv6/extension-routing.go:23 -/
def optional (er : Bytes) : Option Bytes := (length er).bind fun (l : Byte) => slice er 8 l.toNat
/-- net/ipv6/extension-routing.go:24: the sum is a byte. -/
def nextFrame (er : Bytes) : Option Bytes := (length er).bind fun (l : Byte) => sliceFrom er (8#8 + l).toNat

/-- Specification, RFC 8200 section 4.4: the fixed part of eight bytes, and `l` times eight bytes of further data, where `l` is the
length in the header. -/
structure Header where
  next : Byte
  len : Byte
  kind : Byte
  left : Byte
  data : Bytes
  more : Bytes
  data_len : data.length = 4
  more_len : more.length = 8 * len.toNat

/-- The bytes of a header. -/
def Header.bytes (h : Header) : Bytes := [h.next, h.len, h.kind, h.left] ++ h.data ++ h.more

theorem Header.length_bytes (h : Header) : h.bytes.length = 8 * (h.len.toNat + 1) := by
  simp [Header.bytes, h.data_len, h.more_len]; omega

theorem Header.length_eq (h : Header) (rest : Bytes) : length (h.bytes ++ rest) = some h.len := rfl

/-- C174: the fields of the fixed part are read where they are, whatever follows.
Missing: headers with further data (refuted: `C174_next_violated`, `C174_wraps_violated`,
`C174_optional_violated`). -/
theorem C174_fields_partial (h : Header) (rest : Bytes) :
    nextHeader (h.bytes ++ rest) = some h.next ∧ length (h.bytes ++ rest) = some h.len ∧ routingType (h.bytes ++ rest) = some h.kind ∧
    segmentsLeft (h.bytes ++ rest) = some h.left ∧ typeSpecificData (h.bytes ++ rest) = some h.data := by
  refine ⟨rfl, rfl, rfl, rfl, ?_⟩
  have e : h.bytes ++ rest = [h.next, h.len, h.kind, h.left] ++ (h.data ++ (h.more ++ rest)) := by simp [Header.bytes]
  have hd := h.data_len
  rw [typeSpecificData, e, Frames.sliceFrom_mid _ _ 4 rfl, Option.map_some, goCopy]
  rw [List.length_replicate, List.take_left' hd,
    List.drop_eq_nil_of_le (by simp [hd]), List.append_nil]

/-- C174: a header without further data is followed by what `NextFrame` returns.
Missing: headers with further data (refuted: `C174_next_violated`, `C174_wraps_violated`,
`C174_optional_violated`). -/
theorem C174_next_partial (h : Header) (rest : Bytes) (h0 : h.len = 0#8) : nextFrame (h.bytes ++ rest) = some rest := by
  rw [nextFrame, h.length_eq, Option.bind_some, h0]
  exact Frames.sliceFrom_mid _ _ _ (by rw [h.length_bytes, h0]; rfl)

example := C174_next_partial ⟨6, 0, 2, 1, [1, 2, 3, 4], [], rfl, rfl⟩ [9, 9] rfl

/-- C174 violated: the length counts units of eight bytes and is added as bytes: behind every header with further data the next frame
is looked for at the wrong place, whatever the packet. -/
theorem C174_next_violated (h : Header) (rest : Bytes) (h0 : h.len ≠ 0#8) : nextFrame (h.bytes ++ rest) ≠ some rest := by
  have hl := h.length_bytes
  have hn : h.len.toNat ≠ 0 := fun e => h0 (BitVec.eq_of_toNat_eq e)
  rw [nextFrame, h.length_eq, Option.bind_some, sliceFrom]
  split
  · intro e
    have e := congrArg List.length (Option.some.inj e)
    rw [List.length_drop, List.length_append] at e
    rw [BitVec.toNat_add, show (8#8).toNat = 8 from rfl] at e
    have : (8 + h.len.toNat) % 2 ^ 8 ≤ 8 + h.len.toNat := Nat.mod_le _ _
    omega
  · simp

example := C174_next_violated ⟨6, 1, 2, 1, [1, 2, 3, 4], [1, 2, 3, 4, 5, 6, 7, 8], rfl, rfl⟩ [9, 9] (by decide)

/-- C174 violated: the sum wraps around: for the length 248 the next frame is the header itself, so that walking the headers never ends, and for
every greater length it starts inside the fixed part. -/
theorem C174_wraps_violated (p : Bytes) (l : Byte) (hl : length p = some l) (h8 : 8 ≤ p.length) (h : 248 ≤ l.toNat) :
    nextFrame p = some (p.drop (l.toNat - 248)) ∧ (l = 248#8 → nextFrame p = some p) := by
  have key : nextFrame p = some (p.drop (l.toNat - 248)) := by
    have hlt := l.isLt
    have e : (8#8 + l).toNat = l.toNat - 248 := by
      rw [BitVec.toNat_add, show (8#8).toNat = 8 from rfl]; omega
    rw [nextFrame, hl, Option.bind_some, e, sliceFrom, if_pos (by omega)]
  refine ⟨key, fun e => ?_⟩
  rw [key, e]; rfl

example := C174_wraps_violated [6, 250, 2, 1, 1, 2, 3, 4, 5] 250 rfl (by decide) (by decide)

/-- C174 violated: `Optional` panics on every packet whose length is below eight, a header without further data among them, and returns
too little of the further data of every other header. -/
theorem C174_optional_violated :
    (∀ (p : Bytes) (l : Byte), length p = some l → l.toNat < 8 → optional p = none) ∧
    ∀ (h : Header) (rest : Bytes), 8 ≤ h.len.toNat → optional (h.bytes ++ rest) = some (h.more.take (h.len.toNat - 8)) ∧
      optional (h.bytes ++ rest) ≠ some h.more := by
  refine ⟨fun p l hl h => ?_, fun h rest h8 => ?_⟩
  · rw [optional, hl, Option.bind_some, slice, if_neg (by omega)]
  · have hm := h.more_len
    have key : optional (h.bytes ++ rest) = some (h.more.take (h.len.toNat - 8)) := by
      have hb := h.length_bytes
      rw [optional, h.length_eq, Option.bind_some, slice, if_pos ⟨h8, by rw [List.length_append]; omega⟩]
      have e : h.bytes ++ rest = ([h.next, h.len, h.kind, h.left] ++ h.data) ++ (h.more ++ rest) := by simp [Header.bytes]
      have h4 : ([h.next, h.len, h.kind, h.left] ++ h.data).length = 8 := by simp [h.data_len]
      rw [List.drop_take, e, List.drop_left' h4, List.take_append_of_le_length (by omega)]
    refine ⟨key, ?_⟩
    rw [key]
    intro e
    have e := congrArg List.length (Option.some.inj e)
    rw [List.length_take] at e
    omega

/-- A header with 16 bytes of further data. -/
def sample : Header := ⟨6#8, 2#8, 0#8, 1#8, [1#8, 2#8, 3#8, 4#8], List.replicate 16 7#8, rfl, rfl⟩
example : sample.len ≠ 0#8 ∧ typeSpecificData (sample.bytes ++ [9#8]) = some [1#8, 2#8, 3#8, 4#8] ∧ optional (sample.bytes ++ [9#8]) = none := by
  decide
example : (⟨6#8, 0#8, 0#8, 1#8, [1#8, 2#8, 3#8, 4#8], [], rfl, rfl⟩ : Header).len = 0#8 := rfl
example : (⟨6#8, 9#8, 0#8, 1#8, [1#8, 2#8, 3#8, 4#8], List.replicate 72 7#8, rfl, rfl⟩ : Header).len.toNat ≥ 8 := by decide

/-! ## Signature frames -/

/-- net/sec/frame-signature.go:21 and net/srpc/frame-data-signature.go:21 `ID`; the bits of the `int64`. -/
def signatureID (f : Bytes) : Option U64 := Syllab.getInt64 f 0#32

/-- net/srpc/frame-data-signature.go:24 -/
def nextDataSignature (f : Bytes) : Option Bytes := sliceFrom f 8

/-- Specification, net/sec/frame-signature.go:13-17 and net/srpc/frame-data-signature.go:13-17: a length of two bytes, which counts the whole
frame, an identifier of four, and the signature, in the byte order of the codec the identifier is read with. -/
def signatureFrame (stream : U32) (signature : Bytes) : Bytes :=
  Binary.Spec.leDigits 2 (6 + signature.length) ++ Binary.Spec.leDigits 4 stream.toNat ++ signature

theorem leVal_append (a b : Bytes) : leVal (a ++ b) = leVal a + 256 ^ a.length * leVal b := by
  induction a with
  | nil => simp [leVal]
  | cons x a ih => simp only [List.cons_append, leVal, ih, List.length_cons, Nat.pow_succ]; grind

/-- C229 violated: the identifier of a stream is never read from a signature frame: eight bytes from the start are read, the length and two bytes of the
signature among them. -/
theorem C229_signature_id_violated (stream : U32) (signature next : Bytes) (h : 6 + signature.length < 65536) :
    signatureID (signatureFrame stream signature ++ next) ≠ some (stream.zeroExtend 64) := by
  have l2 := leDigits_length 2 (6 + signature.length)
  have l4 := leDigits_length 4 stream.toNat
  rw [signatureID, Syllab.getInt64_eq]
  by_cases hs : 8 ≤ (signatureFrame stream signature ++ next).length
  · rw [Syllab.getUInt64_eq _ _ (by simpa using hs) (by simp)]
    intro e
    have e := congrArg BitVec.toNat (Option.some.inj e)
    have hr : region (signatureFrame stream signature ++ next) (0#32).toNat 8 =
        leDigits 2 (6 + signature.length) ++ (leDigits 4 stream.toNat ++ (signature ++ next).take 2) := by
      show List.take 8 (List.drop 0 _) = _
      rw [List.drop_zero, signatureFrame, List.append_assoc, List.append_assoc, List.take_append, l2, List.take_append, l4,
        List.take_of_length_le (by omega), List.take_of_length_le (by omega)]
    rw [hr, leVal_append, leVal_append, l2, l4, leVal_leDigits, leVal_leDigits, BitVec.toNat_ofNat] at e
    simp only [BitVec.truncate_eq_setWidth, BitVec.toNat_setWidth] at e
    have hv : leVal ((signature ++ next).take 2) < 65536 := by
      have := leVal_lt ((signature ++ next).take 2)
      have h2 : ((signature ++ next).take 2).length ≤ 2 := by simp; omega
      exact Nat.lt_of_lt_of_le this (Nat.pow_le_pow_right (by omega : 0 < 256) h2)
    have := stream.isLt
    generalize leVal ((signature ++ next).take 2) = x at *
    generalize stream.toNat = st at *
    generalize signature.length = n at *
    rw [Nat.mod_eq_of_lt (show 6 + n < 256 ^ 2 by omega), Nat.mod_eq_of_lt (show st < 256 ^ 4 by omega),
      Nat.mod_eq_of_lt (show st < 2 ^ 64 by omega), Nat.mod_eq_of_lt (show _ < 2 ^ 64 by omega)] at e
    omega
  · rw [Syllab.getUInt64_none _ _ (by simp) (by simpa using hs)]
    simp

example : 6 + (bs "signature").length < 65536 ∧ (signatureID (signatureFrame 7#32 (bs "signature"))).isSome = true := by decide

end Memar.Net.Extension
