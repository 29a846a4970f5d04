import Verif.Binary.Lemmas

/-!
# C01, C02: fixed-width integers in byte buffers

`Spec.leVal` / `Spec.beVal` give the number a byte string denotes in base 256 and
`Spec.leDigits` / `Spec.beDigits` its digits; nothing in the statements refers to shifts.
-/

namespace Memar.Binary
open Memar Spec

/-- **C01** (big-endian, 16 bits), load: the number denoted by the first 2 bytes; panics exactly
on shorter buffers. -/
theorem C01_be16_load (b : Bytes) :
    BE.uint16 b = if 2 ≤ b.length then some (BitVec.ofNat 16 (beVal (b.take 2))) else none := by
  split
  · rename_i h
    obtain ⟨a, b, r, rfl⟩ := two_of_length h
    have h' : BE.uint16 (a :: b :: r) = some (or2 b a) := rfl
    rw [h', eq_ofNat (or2_toNat b a)]
    simp [beVal, ]
  · rename_i h
    have : b[1]? = none := by simp; omega
    simp [BE.uint16, this]

/-- **C01** (big-endian, 16 bits), store: writes the 2 base-256 digits in front and keeps the rest;
panics exactly on shorter buffers. -/
theorem C01_be16_store (b : Bytes) (v : U16) :
    BE.putUint16 b v = if 2 ≤ b.length then some (beDigits 2 v.toNat ++ b.drop 2) else none := by
  split
  · rename_i h
    obtain ⟨a, b, r, rfl⟩ := two_of_length h
    simp [BE.putUint16, setAt, beDigits, digits2]
  · rename_i h
    have : b[1]? = none := by simp; omega
    simp [BE.putUint16, this]

/-- **C01** (big-endian, 16 bits), round trip and frame. -/
theorem C01_be16_roundtrip (b b' : Bytes) (v : U16) (h : BE.putUint16 b v = some b') :
    BE.uint16 b' = some v ∧ b'.length = b.length ∧ ∀ i, 2 ≤ i → b'[i]? = b[i]? := by
  rw [C01_be16_store] at h
  split at h
  · rename_i hl
    obtain rfl := Option.some.inj h
    have hd : (beDigits 2 v.toNat).length = 2 := beDigits_length 2 v.toNat
    refine ⟨?_, by simp [hd]; omega, ?_⟩
    · have ht : (beDigits 2 v.toNat ++ b.drop 2).take 2 = beDigits 2 v.toNat := by
        rw [List.take_left' hd]
      rw [C01_be16_load, if_pos (by simp [hd]), ht, beVal_beDigits]
      congr 1
      apply BitVec.eq_of_toNat_eq
      have := v.isLt
      simp
      omega
    · intro i hi
      rw [List.getElem?_append_right (by omega), hd, List.getElem?_drop]
      congr 1; omega
  · exact absurd h (by simp)

example : BE.putUint16 [7, 7, 7] 258 = some (beDigits 2 258 ++ [7]) ∧
    BE.uint16 (beDigits 2 258 ++ [7]) = some 258 ∧ BE.uint16 [7] = none := by decide

/-- **C01** (big-endian, 32 bits), load: the number denoted by the first 4 bytes; panics exactly
on shorter buffers. -/
theorem C01_be32_load (b : Bytes) :
    BE.uint32 b = if 4 ≤ b.length then some (BitVec.ofNat 32 (beVal (b.take 4))) else none := by
  split
  · rename_i h
    obtain ⟨a, b, c, d, r, rfl⟩ := four_of_length h
    have h' : BE.uint32 (a :: b :: c :: d :: r) = some (or4 d c b a) := rfl
    rw [h', eq_ofNat (or4_toNat d c b a)]
    simp [beVal, ]
  · rename_i h
    have : b[3]? = none := by simp; omega
    simp [BE.uint32, this]

/-- **C01** (big-endian, 32 bits), store: writes the 4 base-256 digits in front and keeps the rest;
panics exactly on shorter buffers. -/
theorem C01_be32_store (b : Bytes) (v : U32) :
    BE.putUint32 b v = if 4 ≤ b.length then some (beDigits 4 v.toNat ++ b.drop 4) else none := by
  split
  · rename_i h
    obtain ⟨a, b, c, d, r, rfl⟩ := four_of_length h
    simp [BE.putUint32, setAt, beDigits, digits4]
  · rename_i h
    have : b[3]? = none := by simp; omega
    simp [BE.putUint32, this]

/-- **C01** (big-endian, 32 bits), round trip and frame. -/
theorem C01_be32_roundtrip (b b' : Bytes) (v : U32) (h : BE.putUint32 b v = some b') :
    BE.uint32 b' = some v ∧ b'.length = b.length ∧ ∀ i, 4 ≤ i → b'[i]? = b[i]? := by
  rw [C01_be32_store] at h
  split at h
  · rename_i hl
    obtain rfl := Option.some.inj h
    have hd : (beDigits 4 v.toNat).length = 4 := beDigits_length 4 v.toNat
    refine ⟨?_, by simp [hd]; omega, ?_⟩
    · have ht : (beDigits 4 v.toNat ++ b.drop 4).take 4 = beDigits 4 v.toNat := by
        rw [List.take_left' hd]
      rw [C01_be32_load, if_pos (by simp [hd]), ht, beVal_beDigits]
      congr 1
      apply BitVec.eq_of_toNat_eq
      have := v.isLt
      simp
      omega
    · intro i hi
      rw [List.getElem?_append_right (by omega), hd, List.getElem?_drop]
      congr 1; omega
  · exact absurd h (by simp)

example : BE.putUint32 [7, 7, 7, 7, 7] 258 = some (beDigits 4 258 ++ [7]) ∧
    BE.uint32 (beDigits 4 258 ++ [7]) = some 258 ∧ BE.uint32 [7, 7, 7] = none := by decide

/-- **C01** (big-endian, 64 bits), load: the number denoted by the first 8 bytes; panics exactly
on shorter buffers. -/
theorem C01_be64_load (b : Bytes) :
    BE.uint64 b = if 8 ≤ b.length then some (BitVec.ofNat 64 (beVal (b.take 8))) else none := by
  split
  · rename_i h
    obtain ⟨a, b, c, d, e, f, g, i, r, rfl⟩ := eight_of_length h
    have h' : BE.uint64 (a :: b :: c :: d :: e :: f :: g :: i :: r) = some (or8 i g f e d c b a) := rfl
    rw [h', eq_ofNat (or8_toNat i g f e d c b a)]
    simp [beVal, ]
  · rename_i h
    have : b[7]? = none := by simp; omega
    simp [BE.uint64, this]

/-- **C01** (big-endian, 64 bits), store: writes the 8 base-256 digits in front and keeps the rest;
panics exactly on shorter buffers. -/
theorem C01_be64_store (b : Bytes) (v : U64) :
    BE.putUint64 b v = if 8 ≤ b.length then some (beDigits 8 v.toNat ++ b.drop 8) else none := by
  split
  · rename_i h
    obtain ⟨a, b, c, d, e, f, g, i, r, rfl⟩ := eight_of_length h
    simp [BE.putUint64, setAt, beDigits, digits8]
  · rename_i h
    have : b[7]? = none := by simp; omega
    simp [BE.putUint64, this]

/-- **C01** (big-endian, 64 bits), round trip and frame. -/
theorem C01_be64_roundtrip (b b' : Bytes) (v : U64) (h : BE.putUint64 b v = some b') :
    BE.uint64 b' = some v ∧ b'.length = b.length ∧ ∀ i, 8 ≤ i → b'[i]? = b[i]? := by
  rw [C01_be64_store] at h
  split at h
  · rename_i hl
    obtain rfl := Option.some.inj h
    have hd : (beDigits 8 v.toNat).length = 8 := beDigits_length 8 v.toNat
    refine ⟨?_, by simp [hd]; omega, ?_⟩
    · have ht : (beDigits 8 v.toNat ++ b.drop 8).take 8 = beDigits 8 v.toNat := by
        rw [List.take_left' hd]
      rw [C01_be64_load, if_pos (by simp [hd]), ht, beVal_beDigits]
      congr 1
      apply BitVec.eq_of_toNat_eq
      have := v.isLt
      simp
      omega
    · intro i hi
      rw [List.getElem?_append_right (by omega), hd, List.getElem?_drop]
      congr 1; omega
  · exact absurd h (by simp)

example : BE.putUint64 [7, 7, 7, 7, 7, 7, 7, 7, 7] 258 = some (beDigits 8 258 ++ [7]) ∧
    BE.uint64 (beDigits 8 258 ++ [7]) = some 258 ∧ BE.uint64 [7, 7, 7, 7, 7, 7, 7] = none := by decide

/-- **C01** (little-endian, 16 bits), load: the number denoted by the first 2 bytes; panics exactly
on shorter buffers. -/
theorem C01_le16_load (b : Bytes) :
    LE.uint16 b = if 2 ≤ b.length then some (BitVec.ofNat 16 (leVal (b.take 2))) else none := by
  split
  · rename_i h
    obtain ⟨a, b, r, rfl⟩ := two_of_length h
    have h' : LE.uint16 (a :: b :: r) = some (or2 a b) := rfl
    rw [h', eq_ofNat (or2_toNat a b)]
    simp []
  · rename_i h
    have : b[1]? = none := by simp; omega
    simp [LE.uint16, this]

/-- **C01** (little-endian, 16 bits), store: writes the 2 base-256 digits in front and keeps the rest;
panics exactly on shorter buffers. -/
theorem C01_le16_store (b : Bytes) (v : U16) :
    LE.putUint16 b v = if 2 ≤ b.length then some (leDigits 2 v.toNat ++ b.drop 2) else none := by
  split
  · rename_i h
    obtain ⟨a, b, r, rfl⟩ := two_of_length h
    simp [LE.putUint16, setAt, digits2]
  · rename_i h
    have : b[1]? = none := by simp; omega
    simp [LE.putUint16, this]

/-- **C01** (little-endian, 16 bits), round trip and frame. -/
theorem C01_le16_roundtrip (b b' : Bytes) (v : U16) (h : LE.putUint16 b v = some b') :
    LE.uint16 b' = some v ∧ b'.length = b.length ∧ ∀ i, 2 ≤ i → b'[i]? = b[i]? := by
  rw [C01_le16_store] at h
  split at h
  · rename_i hl
    obtain rfl := Option.some.inj h
    have hd : (leDigits 2 v.toNat).length = 2 := leDigits_length 2 v.toNat
    refine ⟨?_, by simp [hd]; omega, ?_⟩
    · have ht : (leDigits 2 v.toNat ++ b.drop 2).take 2 = leDigits 2 v.toNat := by
        rw [List.take_left' hd]
      rw [C01_le16_load, if_pos (by simp [hd]), ht, leVal_leDigits]
      congr 1
      apply BitVec.eq_of_toNat_eq
      have := v.isLt
      simp
      omega
    · intro i hi
      rw [List.getElem?_append_right (by omega), hd, List.getElem?_drop]
      congr 1; omega
  · exact absurd h (by simp)

example : LE.putUint16 [7, 7, 7] 258 = some (leDigits 2 258 ++ [7]) ∧
    LE.uint16 (leDigits 2 258 ++ [7]) = some 258 ∧ LE.uint16 [7] = none := by decide

/-- **C01** (little-endian, 32 bits), load: the number denoted by the first 4 bytes; panics exactly
on shorter buffers. -/
theorem C01_le32_load (b : Bytes) :
    LE.uint32 b = if 4 ≤ b.length then some (BitVec.ofNat 32 (leVal (b.take 4))) else none := by
  split
  · rename_i h
    obtain ⟨a, b, c, d, r, rfl⟩ := four_of_length h
    have h' : LE.uint32 (a :: b :: c :: d :: r) = some (or4 a b c d) := rfl
    rw [h', eq_ofNat (or4_toNat a b c d)]
    simp []
  · rename_i h
    have : b[3]? = none := by simp; omega
    simp [LE.uint32, this]

/-- **C01** (little-endian, 32 bits), store: writes the 4 base-256 digits in front and keeps the rest;
panics exactly on shorter buffers. -/
theorem C01_le32_store (b : Bytes) (v : U32) :
    LE.putUint32 b v = if 4 ≤ b.length then some (leDigits 4 v.toNat ++ b.drop 4) else none := by
  split
  · rename_i h
    obtain ⟨a, b, c, d, r, rfl⟩ := four_of_length h
    simp [LE.putUint32, setAt, digits4]
  · rename_i h
    have : b[3]? = none := by simp; omega
    simp [LE.putUint32, this]

/-- **C01** (little-endian, 32 bits), round trip and frame. -/
theorem C01_le32_roundtrip (b b' : Bytes) (v : U32) (h : LE.putUint32 b v = some b') :
    LE.uint32 b' = some v ∧ b'.length = b.length ∧ ∀ i, 4 ≤ i → b'[i]? = b[i]? := by
  rw [C01_le32_store] at h
  split at h
  · rename_i hl
    obtain rfl := Option.some.inj h
    have hd : (leDigits 4 v.toNat).length = 4 := leDigits_length 4 v.toNat
    refine ⟨?_, by simp [hd]; omega, ?_⟩
    · have ht : (leDigits 4 v.toNat ++ b.drop 4).take 4 = leDigits 4 v.toNat := by
        rw [List.take_left' hd]
      rw [C01_le32_load, if_pos (by simp [hd]), ht, leVal_leDigits]
      congr 1
      apply BitVec.eq_of_toNat_eq
      have := v.isLt
      simp
      omega
    · intro i hi
      rw [List.getElem?_append_right (by omega), hd, List.getElem?_drop]
      congr 1; omega
  · exact absurd h (by simp)

example : LE.putUint32 [7, 7, 7, 7, 7] 258 = some (leDigits 4 258 ++ [7]) ∧
    LE.uint32 (leDigits 4 258 ++ [7]) = some 258 ∧ LE.uint32 [7, 7, 7] = none := by decide

/-- **C01** (little-endian, 64 bits), load: the number denoted by the first 8 bytes; panics exactly
on shorter buffers. -/
theorem C01_le64_load (b : Bytes) :
    LE.uint64 b = if 8 ≤ b.length then some (BitVec.ofNat 64 (leVal (b.take 8))) else none := by
  split
  · rename_i h
    obtain ⟨a, b, c, d, e, f, g, i, r, rfl⟩ := eight_of_length h
    have h' : LE.uint64 (a :: b :: c :: d :: e :: f :: g :: i :: r) = some (or8 a b c d e f g i) := rfl
    rw [h', eq_ofNat (or8_toNat a b c d e f g i)]
    simp []
  · rename_i h
    have : b[7]? = none := by simp; omega
    simp [LE.uint64, this]

/-- **C01** (little-endian, 64 bits), store: writes the 8 base-256 digits in front and keeps the rest;
panics exactly on shorter buffers. -/
theorem C01_le64_store (b : Bytes) (v : U64) :
    LE.putUint64 b v = if 8 ≤ b.length then some (leDigits 8 v.toNat ++ b.drop 8) else none := by
  split
  · rename_i h
    obtain ⟨a, b, c, d, e, f, g, i, r, rfl⟩ := eight_of_length h
    simp [LE.putUint64, setAt, digits8]
  · rename_i h
    have : b[7]? = none := by simp; omega
    simp [LE.putUint64, this]

/-- **C01** (little-endian, 64 bits), round trip and frame. -/
theorem C01_le64_roundtrip (b b' : Bytes) (v : U64) (h : LE.putUint64 b v = some b') :
    LE.uint64 b' = some v ∧ b'.length = b.length ∧ ∀ i, 8 ≤ i → b'[i]? = b[i]? := by
  rw [C01_le64_store] at h
  split at h
  · rename_i hl
    obtain rfl := Option.some.inj h
    have hd : (leDigits 8 v.toNat).length = 8 := leDigits_length 8 v.toNat
    refine ⟨?_, by simp [hd]; omega, ?_⟩
    · have ht : (leDigits 8 v.toNat ++ b.drop 8).take 8 = leDigits 8 v.toNat := by
        rw [List.take_left' hd]
      rw [C01_le64_load, if_pos (by simp [hd]), ht, leVal_leDigits]
      congr 1
      apply BitVec.eq_of_toNat_eq
      have := v.isLt
      simp
      omega
    · intro i hi
      rw [List.getElem?_append_right (by omega), hd, List.getElem?_drop]
      congr 1; omega
  · exact absurd h (by simp)

example : LE.putUint64 [7, 7, 7, 7, 7, 7, 7, 7, 7] 258 = some (leDigits 8 258 ++ [7]) ∧
    LE.uint64 (leDigits 8 258 ++ [7]) = some 258 ∧ LE.uint64 [7, 7, 7, 7, 7, 7, 7] = none := by decide

/-! ### C02: the builds for big-endian CPUs use the opposite byte order -/

/-- On a big-endian CPU build the type `BigEndian` behaves as the little-endian codec … -/
theorem C02_be_on_be_cpu_is_le (b : Bytes) :
    BEonBE.uint16 b = LE.uint16 b ∧ BEonBE.uint32 b = LE.uint32 b ∧ BEonBE.uint64 b = LE.uint64 b ∧
    (∀ v, BEonBE.putUint16 b v = LE.putUint16 b v) ∧ (∀ v, BEonBE.putUint32 b v = LE.putUint32 b v) ∧
    (∀ v, BEonBE.putUint64 b v = LE.putUint64 b v) :=
  ⟨rfl, rfl, rfl, fun _ => rfl, fun _ => rfl, fun _ => rfl⟩

/-- … and the type `LittleEndian` as the big-endian codec. -/
theorem C02_le_on_be_cpu_is_be (b : Bytes) :
    LEonBE.uint16 b = BE.uint16 b ∧ LEonBE.uint32 b = BE.uint32 b ∧ LEonBE.uint64 b = BE.uint64 b ∧
    (∀ v, LEonBE.putUint16 b v = BE.putUint16 b v) ∧ (∀ v, LEonBE.putUint32 b v = BE.putUint32 b v) ∧
    (∀ v, LEonBE.putUint64 b v = BE.putUint64 b v) :=
  ⟨rfl, rfl, rfl, fun _ => rfl, fun _ => rfl, fun _ => rfl⟩

/-- **C02** violated: the bytes written for a value differ between the two builds. -/
theorem C02_portable_violated :
    ¬ ∀ (b : Bytes) (v : U32), BEonBE.putUint32 b v = BE.putUint32 b v := by
  intro h
  exact absurd (h [0, 0, 0, 0] 1) (by decide)

theorem beDigits_eq_rev (n v : Nat) : (leDigits n v) = (beDigits n v).reverse := by
  simp [beDigits]

/-- **C02** (what does hold): a peer built for the other CPU kind reads every stored value byte-reversed;
the two builds agree on a 4-byte-or-longer buffer exactly for the values whose digit string is a palindrome.
Missing: that the builds agree on all values (refuted: `C02_started_program_violated`,
`C02_portable_violated`, `C02_portable_widths_violated`). -/
theorem C02_portable_partial (b : Bytes) (v : U32) (h : 4 ≤ b.length) :
    BEonBE.putUint32 b v = some ((beDigits 4 v.toNat).reverse ++ b.drop 4) ∧
    (BEonBE.putUint32 b v = BE.putUint32 b v ↔ (beDigits 4 v.toNat).reverse = beDigits 4 v.toNat) := by
  have h1 : BEonBE.putUint32 b v = some ((beDigits 4 v.toNat).reverse ++ b.drop 4) := by
    rw [(C02_be_on_be_cpu_is_le b).2.2.2.2.1, C01_le32_store, if_pos h, beDigits_eq_rev]
  refine ⟨h1, ?_⟩
  rw [h1, C01_be32_store, if_pos h]
  constructor
  · intro he
    exact List.append_cancel_right (Option.some.inj he)
  · intro he; rw [he]

example : BEonBE.putUint32 [0, 0, 0, 0] 1 = some [1, 0, 0, 0] ∧
    BE.putUint32 [0, 0, 0, 0] 1 = some [0, 0, 0, 1] := by decide

/-- **C01** for single bytes: what is put is read back, only the first byte changes, and a panic
happens exactly on the empty buffer. -/
theorem C01_u8_roundtrip (b : Bytes) (v : U8) :
    (b ≠ [] → ∃ b', putUint8 b v = some b' ∧ uint8 b' = some v ∧ b'.tail = b.tail) ∧
    (b = [] → putUint8 b v = none ∧ uint8 b = none) := by
  cases b with
  | nil => simp [putUint8, uint8, setAt]
  | cons x r => simp [putUint8, uint8, setAt]

/-- **C01** for booleans: both values round-trip, whatever the byte was before. -/
theorem C01_bool_roundtrip (b : Bytes) (v : Bool) :
    (b ≠ [] → ∃ b', putBool b v = some b' ∧ bool b' = some v ∧ b'.tail = b.tail) ∧
    (b = [] → putBool b v = none ∧ bool b = none) := by
  cases b with
  | nil => cases v <;> simp [putBool, bool, setAt]
  | cons x r => cases v <;> simp [putBool, bool, setAt]

/-- **C01** for booleans, on the wire: false is 0 and true is 1; every other byte is read as true. -/
theorem C01_bool_bytes (x : Byte) (r : Bytes) :
    putBool (x :: r) false = some (0 :: r) ∧ putBool (x :: r) true = some (1 :: r) ∧
    (bool (x :: r) = some false ↔ x = 0) ∧ (bool (x :: r) = some true ↔ x ≠ 0) := by
  refine ⟨rfl, rfl, ?_, ?_⟩ <;> simp [bool]

example : putBool [9, 8] false = some [0, 8] ∧ bool [0, 8] = some false := by decide

end Memar.Binary
