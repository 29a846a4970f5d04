import Verif.Identifier.Text
import Verif.Base64

/-!
# C151: texts of identifiers, random identifiers, and identifiers made from names
-/

namespace Memar.Identifier
open Memar

namespace TSpec

/-- The version number of an RFC 4122 identifier: the high half of byte 6. -/
def version (u : Bytes) : Option Nat := u[6]?.map fun (b : Byte) => b.toNat / 16

end TSpec
open TSpec

/-- **C151**: with a base64 codec that decodes what it encodes, the texts of two identifiers of the same kind are equal only when
the identifiers are, and each can be read back by decoding the text. -/
theorem C151_text (enc : Bytes → Bytes) (dec : Bytes → Option Bytes) (hcodec : ∀ b, dec (enc b) = some b) (u v : Bytes) :
    (U16B.toString enc u = U16B.toString enc v ↔ u = v) ∧ (U32B.toString enc u = U32B.toString enc v ↔ u = v) ∧
      (U8B.toString enc u = U8B.toString enc v ↔ u = v) ∧
      dec (U16B.toString enc u) = some u ∧ dec (U32B.toString enc u) = some u ∧ dec (U8B.toString enc u) = some u := by
  have inj : enc u = enc v ↔ u = v := by
    refine ⟨fun h => ?_, fun h => by rw [h]⟩
    have := hcodec u
    rw [h, hcodec v] at this
    exact (Option.some.inj this).symm
  exact ⟨inj, inj, inj, hcodec u, hcodec u, hcodec u⟩

example := C151_text Base64.encode Base64.decode Base64.decode_encode (bs "one") (bs "two")

/-- **C238** violated for reading: reading a text leaves every identifier as it was and reports no error, whatever the text is. So
an identifier that differs from the one written is not turned into it. -/
theorem C238_read_violated (enc : Bytes → Bytes) (old u s : Bytes) (h : old ≠ u) :
    U16B.fromString old (U16B.toString enc u) ≠ (u, false) ∧ U32B.fromString old (U32B.toString enc u) ≠ (u, false) ∧
      U8B.fromString old (U8B.toString enc u) ≠ (u, false) ∧
      (U16B.fromString old s).2 = false ∧ (U32B.fromString old s).2 = false ∧ (U8B.fromString old s).2 = false := by
  refine ⟨?_, ?_, ?_, rfl, rfl, rfl⟩ <;> · intro e; exact h (congrArg Prod.fst e)

example := C238_read_violated Base64.encode (List.replicate 16 9#8) (List.replicate 16 7#8) (bs "AQID") (by decide)

theorem readInto_full (id rnd : Bytes) (h : rnd.length = id.length) : readInto id 0 rnd = rnd := by
  simp only [readInto, goCopy, List.take_zero, List.nil_append, List.drop_zero]
  rw [List.take_of_length_le (by omega), List.drop_of_length_le (by omega), List.append_nil]

/-- **C151**: an identifier of 8 or 32 bytes made only from random bytes is those bytes. -/
theorem C151_random (old8 old32 rnd8 rnd32 : Bytes) (h8 : old8.length = 8) (h32 : old32.length = 32) (hr8 : rnd8.length = 8)
    (hr32 : rnd32.length = 32) : U8B.newRandom old8 rnd8 = rnd8 ∧ U32B.newRandom old32 rnd32 = rnd32 :=
  ⟨readInto_full _ _ (by omega), readInto_full _ _ (by omega)⟩

example := C151_random (List.replicate 8 9#8) (List.replicate 32 9#8) (List.replicate 8 7#8) (List.replicate 32 7#8) (by decide) (by decide)
  (by decide) (by decide)

/-- **C238** violated for a random source that fails: the bytes it did not give keep their old value, and nothing tells the
caller. -/
theorem C238_random_failure_violated (old rnd : Bytes) (h : rnd.length ≤ old.length) :
    U8B.newRandom old rnd = rnd ++ old.drop rnd.length ∧ U32B.newRandom old rnd = rnd ++ old.drop rnd.length := by
  have key : readInto old 0 rnd = rnd ++ old.drop rnd.length := by
    simp only [readInto, goCopy, List.take_zero, List.nil_append, List.drop_zero]
    rw [List.take_of_length_le h]
  exact ⟨key, key⟩

example := C238_random_failure_violated (List.replicate 8 9#8) [1, 2, 3] (by decide)

/-- **C151**: the short text of an identifier of 8 bytes is the text of the whole identifier; the hash of a string is that of its
bytes. -/
theorem C151_short_text (enc sum : Bytes → Bytes) (u data : Bytes) (h : u.length = 8) :
    U8B.idAsString enc u = some (U8B.toString enc u) ∧ U32B.newHashString sum data = sum data := by
  refine ⟨?_, rfl⟩
  rw [U8B.idAsString, sliceTo, if_pos (by omega), List.take_of_length_le (by omega)]
  rfl

example := C151_short_text Base64.encode List.reverse (List.replicate 8 9#8) (bs "data") (by decide)

/-- **C238** violated for names: the identifiers of any two names in any two name spaces are equal, and their version is not 5. -/
theorem C238_v5_violated (ns ns' value value' : Bytes) :
    Rfc4122.equal (Rfc4122.v5 ns value) (Rfc4122.v5 ns' value') = true ∧ version (Rfc4122.v5 ns value) ≠ some 5 := by
  refine ⟨beq_self_eq_true _, ?_⟩
  simp [version, Rfc4122.v5]

/-- **C238** violated for times and machines: the identifiers of any two moments and machines are equal, and their version is not
1. -/
theorem C238_v1_violated (now now' mac mac' : Bytes) :
    Rfc4122.equal (Rfc4122.v1 now mac) (Rfc4122.v1 now' mac') = true ∧ version (Rfc4122.v1 now mac) ≠ some 1 := by
  refine ⟨beq_self_eq_true _, ?_⟩
  simp [version, Rfc4122.v1]

/-- **C151**: two identifiers are equal exactly when all their bytes are. -/
theorem C151_equal (u v : Bytes) : Rfc4122.equal u v = true ↔ u = v := by simp [Rfc4122.equal]

/- A codec with the property that is asked for: base64 as specified in Verif/Base64.lean. -/
example : ∀ b : Bytes, Base64.decode (Base64.encode b) = some b := Base64.decode_encode
example : U8B.newRandom [9, 9, 9, 9, 9, 9, 9, 9] [1, 2, 3] = [1, 2, 3, 9, 9, 9, 9, 9] := by decide
example : version [0, 0, 0, 0, 0, 0, 0x5f#8] = some 5 := by decide

end Memar.Identifier
