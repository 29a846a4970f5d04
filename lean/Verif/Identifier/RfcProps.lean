import Verif.Identifier.Model
import Verif.Binary.Props

/-!
# C31: RFC 4122 identifiers
-/

namespace Memar.Identifier
open Memar Binary Binary.Spec

namespace Rfc4122

/-- C31: version 4, RFC variant, and the other 122 bits as the random source gave them. -/
theorem C31_v4 (rnd : Bytes) (h : rnd.length = 16) :
    ∃ u, v4 rnd = some u ∧ u.length = 16 ∧
      (∀ i, i ≠ 6 → i ≠ 8 → u[i]? = rnd[i]?) ∧
      (∃ r6 u6 : Byte, rnd[6]? = some r6 ∧ u[6]? = some u6 ∧ u6.toNat = 64 + r6.toNat % 16) ∧
      (∃ r8 u8 : Byte, rnd[8]? = some r8 ∧ u[8]? = some u8 ∧ u8.toNat = 128 + r8.toNat % 64) := by
  match rnd, h with
  | [r0, r1, r2, r3, r4, r5, r6, r7, r8, r9, r10, r11, r12, r13, r14, r15], _ =>
    refine ⟨[r0, r1, r2, r3, r4, r5, (r6 &&& 0x0f#8) ||| (0x04#8 <<< 4), r7,
      (r8 &&& (0xff#8 >>> 2)) ||| (0x02#8 <<< 6), r9, r10, r11, r12, r13, r14, r15], rfl, rfl, ?_, ?_, ?_⟩
    · intro i h6 h8
      match i, h6, h8 with
      | 0, _, _ | 1, _, _ | 2, _, _ | 3, _, _ | 4, _, _ | 5, _, _ | 7, _, _ | 9, _, _ | 10, _, _
      | 11, _, _ | 12, _, _ | 13, _, _ | 14, _, _ | 15, _, _ => rfl
      | n + 16, _, _ => rfl
      | 6, h, _ => exact absurd rfl h
      | 8, _, h => exact absurd rfl h
    · refine ⟨r6, _, rfl, rfl, ?_⟩
      have : ∀ n < 256, ((BitVec.ofNat 8 n &&& 0x0f#8) ||| (0x04#8 <<< 4)).toNat = 64 + n % 16 := by
        decide +kernel
      have := this r6.toNat r6.isLt
      simpa using this
    · refine ⟨r8, _, rfl, rfl, ?_⟩
      have : ∀ n < 256, ((BitVec.ofNat 8 n &&& (0xff#8 >>> 2)) ||| (0x02#8 <<< 6)).toNat
          = 128 + n % 64 := by decide +kernel
      have := this r8.toNat r8.isLt
      simpa using this

example : v4 (List.replicate 16 0xff#8) = some [255, 255, 255, 255, 255, 255, 0x4f, 255, 0xbf, 255,
    255, 255, 255, 255, 255, 255] := by decide

/-- C31: without enough random bytes no identifier is made. -/
theorem C31_v4_no_random (rnd : Bytes) (h : rnd.length < 16) : v4 rnd = none := by
  rw [v4, if_pos h]

example := C31_v4_no_random [1, 2, 3] (by decide)

/-- Specification: the two lower-case hexadecimal digits of a byte. -/
def hex2 (b : Byte) : Bytes :=
  [(bs "0123456789abcdef").getD (b.toNat / 16) 0#8, (bs "0123456789abcdef").getD (b.toNat % 16) 0#8]

/-- Specification: the canonical text, groups of 4, 2, 2, 2 and 6 bytes in hexadecimal with dashes
between. -/
def canonical (u : Bytes) : Bytes :=
  (u.take 4).flatMap hex2 ++ ch '-' :: ((u.drop 4).take 2).flatMap hex2 ++
  ch '-' :: ((u.drop 6).take 2).flatMap hex2 ++ ch '-' :: ((u.drop 8).take 2).flatMap hex2 ++
  ch '-' :: (u.drop 10).flatMap hex2

theorem hex2_eq (b : Byte) :
    hex2 b = [hextable.getD (b >>> 4).toNat 0#8, hextable.getD (b &&& 0x0f#8).toNat 0#8] := by
  have h : ∀ n < 256, n / 16 = (BitVec.ofNat 8 n >>> 4).toNat ∧
      n % 16 = (BitVec.ofNat 8 n &&& 0x0f#8).toNat := by decide +kernel
  obtain ⟨h1, h2⟩ := h b.toNat b.isLt
  simp only [BitVec.ofNat_toNat, BitVec.setWidth_eq] at h1 h2
  rw [hex2, h1, h2]; rfl

attribute [-simp] List.length_flatMap

theorem hexEncode_eq (pre mid : Bytes) (src : Bytes) (h : mid.length = 2 * src.length) :
    hexEncode (pre ++ mid) pre.length src = some (pre ++ src.flatMap hex2) := by
  induction src generalizing pre mid with
  | nil =>
    have : mid = [] := List.length_eq_zero_iff.1 (by simpa using h)
    subst this; rfl
  | cons v src ih =>
    match mid, h with
    | a :: b :: mid, h =>
      have h' : mid.length = 2 * src.length := by simp only [List.length_cons] at h; omega
      have e := ih (pre ++ hex2 v) mid h'
      rw [hex2_eq] at e
      rw [hexEncode, setAt, if_pos (by simp), Option.bind_some, setAt, if_pos (by simp), Option.bind_some,
        List.flatMap_cons, hex2_eq, ← List.append_assoc, ← e]
      congr 1
      · simp
      · simp

theorem encodePart_eq (dst : Bytes) (i j : Nat) (u : Bytes) (a b : Nat) (hij : i + 2 * (b - a) = j)
    (hj : j ≤ dst.length) (hab : a ≤ b) (hb : b ≤ u.length) :
    encodePart dst i j u a b
      = some (dst.take i ++ ((u.take b).drop a).flatMap hex2 ++ dst.drop j) := by
  have e := hexEncode_eq [] ((dst.take j).drop i) ((u.take b).drop a) (by simp; omega)
  simp only [List.nil_append, List.length_nil] at e
  rw [encodePart, slice, if_pos ⟨hab, hb⟩, Option.bind_some, onSlice, slice, if_pos (by omega),
    Option.bind_some, e, Option.map_some]

/-- The first part may be given a longer destination. -/
theorem encodePart_first (dst : Bytes) (u : Bytes) (hj : 8 ≤ dst.length) (hb : 4 ≤ u.length) :
    encodePart dst 0 dst.length u 0 4 = some ((u.take 4).flatMap hex2 ++ dst.drop 8) := by
  have hgen : ∀ (src pre mid post : Bytes), mid.length = 2 * src.length →
      hexEncode (pre ++ mid ++ post) pre.length src = some (pre ++ src.flatMap hex2 ++ post) := by
    intro src
    induction src with
    | nil =>
      intro pre mid post h
      have : mid = [] := List.length_eq_zero_iff.1 (by simpa using h)
      subst this; simp [hexEncode]
    | cons v src ih =>
      intro pre mid post h
      match mid, h with
      | a :: b :: mid, h =>
        have h' : mid.length = 2 * src.length := by simp only [List.length_cons] at h; omega
        have e := ih (pre ++ hex2 v) mid post h'
        rw [hex2_eq] at e
        rw [hexEncode, setAt, if_pos (by simp), Option.bind_some, setAt, if_pos (by simp),
          Option.bind_some, List.flatMap_cons, hex2_eq, ← List.append_assoc, ← e]
        congr 1
        · simp
        · simp
  have e := hgen (u.take 4) [] (dst.take 8) (dst.drop 8) (by simp; omega)
  simp only [List.nil_append, List.length_nil, List.take_append_drop] at e
  rw [encodePart, slice, if_pos (by omega), Option.bind_some, onSlice, slice, if_pos (by omega),
    Option.bind_some, List.take_length, List.drop_zero, List.drop_zero, e]
  simp

theorem flatMap_hex2_length (s : Bytes) : (s.flatMap hex2).length = 2 * s.length := by
  induction s with
  | nil => rfl
  | cons a s ih => simp [List.flatMap_cons, ih, hex2]; omega

/-- Storing a dash between two parts. -/
theorem dash (pre : Bytes) (c : Byte) (r : Bytes) (i : Nat) (h : pre.length = i) (x : Byte) :
    setAt (pre ++ c :: r) i x = some ((pre ++ [x]) ++ r) := by
  subst h; simp [setAt]

theorem encodeRest (A dst : Bytes) (hA : A.length = 8) (hdst : dst.length = 28) (u : Bytes)
    (hu : u.length = 16) (hAe : A = (u.take 4).flatMap hex2) (k : Bytes → Option Bytes)
    (hk : ∀ B : Bytes, B.length = 24 → ∀ r : Bytes, r.length = 12 → k (B ++ r)
      = encodePart (B ++ r) 24 36 u 10 16) :
    ((setAt (A ++ dst) 8 (ch '-')).bind fun dst =>
     (encodePart dst 9 13 u 4 6).bind fun dst => (setAt dst 13 (ch '-')).bind fun dst =>
     (encodePart dst 14 18 u 6 8).bind fun dst => (setAt dst 18 (ch '-')).bind fun dst =>
     (encodePart dst 19 23 u 8 10).bind fun dst => (setAt dst 23 (ch '-')).bind k)
      = some (canonical u) := by
  have lf := fun a b => flatMap_hex2_length ((u.take b).drop a)
  have l46 := lf 4 6
  have l68 := lf 6 8
  have l810 := lf 8 10
  simp only [List.length_drop, List.length_take, hu] at l46 l68 l810
  match dst, hdst with
  | c8 :: dst, hd =>
    rw [dash A c8 dst 8 hA, Option.bind_some,
      encodePart_eq _ 9 13 u 4 6 (by omega) (by simp at hd ⊢; omega) (by omega) (by omega),
      Option.bind_some, List.take_left' (by simp; omega)]
    have hr1 : ((A ++ [ch '-']) ++ dst).drop 13 = dst.drop 4 := by
      rw [List.drop_append, List.drop_eq_nil_iff.2 (by simp; omega)]; simp [hA]
    rw [hr1]
    have hd4 : (dst.drop 4).length = 23 := by simp at hd ⊢; omega
    match dst.drop 4, hd4 with
    | c13 :: dst, hd =>
      rw [dash _ c13 dst 13 (by simp; omega), Option.bind_some,
        encodePart_eq _ 14 18 u 6 8 (by omega) (by simp at hd ⊢; omega) (by omega) (by omega),
        Option.bind_some, List.take_left' (by simp; omega)]
      have hr2 : ∀ B : Bytes, B.length = 14 → (B ++ dst).drop 18 = dst.drop 4 := by
        intro B hB
        rw [List.drop_append, List.drop_eq_nil_iff.2 (by omega)]; simp [hB]
      rw [hr2 _ (by simp; omega)]
      have hd4 : (dst.drop 4).length = 18 := by simp at hd ⊢; omega
      match dst.drop 4, hd4 with
      | c18 :: dst, hd =>
        rw [dash _ c18 dst 18 (by simp; omega), Option.bind_some,
          encodePart_eq _ 19 23 u 8 10 (by omega) (by simp at hd ⊢; omega) (by omega) (by omega),
          Option.bind_some, List.take_left' (by simp; omega)]
        have hr3 : ∀ B : Bytes, B.length = 19 → (B ++ dst).drop 23 = dst.drop 4 := by
          intro B hB
          rw [List.drop_append, List.drop_eq_nil_iff.2 (by omega)]; simp [hB]
        rw [hr3 _ (by simp; omega)]
        have hd4 : (dst.drop 4).length = 13 := by simp at hd ⊢; omega
        match dst.drop 4, hd4 with
        | c23 :: dst, hd =>
          have hd12 : dst.length = 12 := by simpa using hd
          have hlast : ∀ B : Bytes, B.length = 24 → (B ++ dst).drop 36 = [] := by
            intro B hB
            rw [List.drop_eq_nil_iff, List.length_append]; omega
          rw [dash _ c23 dst 23 (by simp; omega), Option.bind_some, hk _ (by simp; omega) _ hd12,
            encodePart_eq _ 24 36 u 10 16 (by omega) (by simp; omega) (by omega) (by omega),
            List.take_left' (by simp; omega), hlast _ (by simp; omega)]
          subst hAe
          simp only [canonical, List.append_assoc, List.cons_append, List.nil_append, List.append_nil,
            List.drop_take, Nat.reduceSub]
          rw [List.take_of_length_le (l := u.drop 10) (by simp; omega)]

/-- C31: the text form is the canonical one. -/
theorem C31_text (u : Bytes) (h : u.length = 16) : toString u = some (canonical u) := by
  have l4 := flatMap_hex2_length (u.take 4)
  simp only [List.length_take, h] at l4
  rw [toString, encodeHex]
  simp only [Option.bind_eq_bind]
  rw [encodePart_first _ _ (by simp) (by omega), Option.bind_some]
  exact encodeRest _ _ (by omega) (by simp) u h rfl _ fun B hB r hr => by
    rw [show (B ++ r).length = 36 by simp; omega]

example := C31_text [0x12, 0x3e, 0x45, 0x67, 0xe8, 0x9b, 0x12, 0xd3, 0xa4, 0x56, 0x42, 0x66, 0x14, 0x17, 0x40, 0x00] rfl

/-- C31: the helper function writes the same text. -/
theorem C31_utility_text (u : Bytes) (h : u.length = 16) : utilityToString u = some (canonical u) := by
  have l4 := flatMap_hex2_length (u.take 4)
  simp only [List.length_take, h] at l4
  rw [utilityToString]
  simp only [Option.bind_eq_bind]
  rw [encodePart_eq _ 0 8 u 0 4 (by omega) (by simp) (by omega) (by omega), Option.bind_some,
    List.take_zero, List.nil_append, List.drop_zero]
  exact encodeRest _ _ (by omega) (by simp) u h rfl _ fun B hB r hr => by
    rw [show (B ++ r).length = 36 by simp; omega]

example := C31_utility_text [0x12, 0x3e, 0x45, 0x67, 0xe8, 0x9b, 0x12, 0xd3, 0xa4, 0x56, 0x42, 0x66, 0x14, 0x17, 0x40, 0x00] rfl

/-- C31: the URI form is the text after `urn:uuid:`. -/
theorem C31_uri (u : Bytes) (h : u.length = 16) : uri u = some (bs "urn:uuid:" ++ canonical u) := by
  have ht := C31_text u h
  have hg : (goCopy (List.replicate 45 0#8) (bs "urn:uuid:")) = bs "urn:uuid:" ++ List.replicate 36 0#8 := by
    decide
  rw [toString] at ht
  rw [uri, hg, onSliceFrom, sliceFrom, if_pos (by simp), List.drop_left' (by decide)]
  simp only [Option.bind_eq_bind]
  rw [Option.bind_some, ht, Option.bind_some, List.take_left' (by decide)]

example : canonical [0x12, 0x3e, 0x45, 0x67, 0xe8, 0x9b, 0x12, 0xd3, 0xa4, 0x56, 0x42, 0x66, 0x14,
    0x17, 0x40, 0x00] = bs "123e4567-e89b-12d3-a456-426614174000" := by decide +kernel

/-- C31: 36 characters, dashes at 8, 13, 18 and 23, lower-case hexadecimal digits elsewhere. -/
theorem C31_text_shape (u : Bytes) (h : u.length = 16) :
    (canonical u).length = 36 ∧
    ∀ (i : Nat) (c : Byte), (canonical u)[i]? = some c →
      if i = 8 ∨ i = 13 ∨ i = 18 ∨ i = 23 then c = ch '-'
      else c ∈ bs "0123456789abcdef" := by
  have hd : ∀ n < 16, (bs "0123456789abcdef").getD n 0#8 ∈ bs "0123456789abcdef" := by decide +kernel
  have hhi : ∀ b : Byte, (bs "0123456789abcdef").getD (b.toNat / 16) 0#8 ∈ bs "0123456789abcdef" :=
    fun b => hd _ (by have := b.isLt; omega)
  have hlo : ∀ b : Byte, (bs "0123456789abcdef").getD (b.toNat % 16) 0#8 ∈ bs "0123456789abcdef" :=
    fun b => hd _ (by omega)
  match u, h with
  | [u0, u1, u2, u3, u4, u5, u6, u7, u8, u9, u10, u11, u12, u13, u14, u15], _ =>
    simp only [canonical, List.take_succ_cons, List.take_zero, List.drop_succ_cons, List.drop_zero,
      List.flatMap_cons, List.flatMap_nil, hex2, List.append_nil, List.cons_append, List.nil_append]
    refine ⟨rfl, fun i c hc => ?_⟩
    match i, hc with
    | 8, hc | 13, hc | 18, hc | 23, hc =>
      simp only [List.getElem?_cons_succ, List.getElem?_cons_zero, Option.some.injEq] at hc
      rw [if_pos (by omega), ← hc]
    | 0, hc | 2, hc | 4, hc | 6, hc | 9, hc | 11, hc | 14, hc | 16, hc | 19, hc | 21, hc | 24, hc
    | 26, hc | 28, hc | 30, hc | 32, hc | 34, hc =>
      simp only [List.getElem?_cons_succ, List.getElem?_cons_zero, Option.some.injEq] at hc
      rw [if_neg (by omega), ← hc]
      exact hhi _
    | 1, hc | 3, hc | 5, hc | 7, hc | 10, hc | 12, hc | 15, hc | 17, hc | 20, hc | 22, hc | 25, hc
    | 27, hc | 29, hc | 31, hc | 33, hc | 35, hc =>
      simp only [List.getElem?_cons_succ, List.getElem?_cons_zero, Option.some.injEq] at hc
      rw [if_neg (by omega), ← hc]
      exact hlo _
    | n + 36, hc => simp at hc

example := C31_text_shape [0x12, 0x3e, 0x45, 0x67, 0xe8, 0x9b, 0x12, 0xd3, 0xa4, 0x56, 0x42, 0x66, 0x14, 0x17, 0x40, 0x00] rfl

theorem hexChar_table : ∀ n < 16,
    fromHexChar ((bs "0123456789abcdef").getD n 0#8) = some (BitVec.ofNat 8 n) := by decide +kernel

theorem nibbles (b : Byte) :
    (BitVec.ofNat 8 (b.toNat / 16) <<< 4) ||| BitVec.ofNat 8 (b.toNat % 16) = b := by
  have h : ∀ n < 256, (BitVec.ofNat 8 (n / 16) <<< 4) ||| BitVec.ofNat 8 (n % 16) = BitVec.ofNat 8 n := by
    decide +kernel
  have := h b.toNat b.isLt
  simpa using this

theorem decode_hex2 (b : Byte) (s : Bytes) (dst : Bytes) (i : Nat) :
    hexDecode dst i (hex2 b ++ s) = (setAt dst i b).bind fun dst => hexDecode dst (i + 1) s := by
  have hb := b.isLt
  rw [hex2, List.cons_append, List.cons_append, List.nil_append, hexDecode,
    hexChar_table _ (by omega), hexChar_table _ (by omega)]
  dsimp only
  rw [nibbles]

theorem hexDecode_eq (pre mid : Bytes) (src : Bytes) (h : mid.length = src.length) :
    hexDecode (pre ++ mid) pre.length (src.flatMap hex2) = some (pre ++ src) := by
  induction src generalizing pre mid with
  | nil =>
    have : mid = [] := List.length_eq_zero_iff.1 (by simpa using h)
    subst this; rfl
  | cons v src ih =>
    match mid, h with
    | a :: mid, h =>
      have e := ih (pre ++ [v]) mid (by simpa using h)
      rw [List.flatMap_cons, decode_hex2, dash _ _ _ _ rfl, Option.bind_some]
      rw [List.length_append] at e
      rw [show pre.length + 1 = pre.length + [v].length from rfl, e]
      simp

theorem decodePart_eq (u : Bytes) (a b : Nat) (text src : Bytes) (i j : Nat)
    (ht : slice text i j = some (src.flatMap hex2)) (hl : a + src.length = b) (hb : b ≤ u.length) :
    decodePart u a b text i j = some (u.take a ++ src ++ u.drop b) := by
  have e := hexDecode_eq [] ((u.take b).drop a) src (by simp; omega)
  simp only [List.nil_append, List.length_nil] at e
  rw [decodePart, ht, Option.bind_some, onSlice, slice, if_pos (by omega), Option.bind_some, e,
    Option.map_some]

theorem slice_mid (A B C : Bytes) (i j : Nat) (hi : A.length = i) (hj : (A ++ B).length = j) :
    slice (A ++ B ++ C) i j = some B := by
  rw [slice, if_pos (by simp at *; omega), List.take_left' hj, List.drop_left' hi]

/-- The parser's body understands the canonical text: its local copy becomes the identifier. -/
theorem fromStringLocal_canonical (old u : Bytes) (hold : old.length = 16) (h : u.length = 16) :
    fromStringLocal old (canonical u) = some u := by
  obtain ⟨A, B, C, D, E, rfl, hA, hB, hC, hD, hE⟩ : ∃ A B C D E : Bytes, u = A ++ B ++ C ++ D ++ E ∧
      A.length = 4 ∧ B.length = 2 ∧ C.length = 2 ∧ D.length = 2 ∧ E.length = 6 := by
    refine ⟨u.take 4, (u.drop 4).take 2, (u.drop 6).take 2, (u.drop 8).take 2, u.drop 10, ?_,
      by simp; omega, by simp; omega, by simp; omega, by simp; omega, by simp; omega⟩
    have h4 : u.take 4 ++ u.drop 4 = u := List.take_append_drop 4 u
    have h6 : (u.drop 4).take 2 ++ u.drop 6 = u.drop 4 := by
      have := List.take_append_drop 2 (u.drop 4); rwa [List.drop_drop] at this
    have h8 : (u.drop 6).take 2 ++ u.drop 8 = u.drop 6 := by
      have := List.take_append_drop 2 (u.drop 6); rwa [List.drop_drop] at this
    have h10 : (u.drop 8).take 2 ++ u.drop 10 = u.drop 8 := by
      have := List.take_append_drop 2 (u.drop 8); rwa [List.drop_drop] at this
    simp only [List.append_assoc]
    rw [h10, h8, h6, h4]
  have ll := flatMap_hex2_length
  have hcan : canonical (A ++ B ++ C ++ D ++ E) = A.flatMap hex2 ++ ch '-' :: B.flatMap hex2 ++
      ch '-' :: C.flatMap hex2 ++ ch '-' :: D.flatMap hex2 ++ ch '-' :: E.flatMap hex2 := by
    have t4 : (A ++ B ++ C ++ D ++ E).take 4 = A := by
      simp only [List.append_assoc]; exact List.take_left' hA
    have d4 : (A ++ B ++ C ++ D ++ E).drop 4 = B ++ (C ++ D ++ E) := by
      simp only [List.append_assoc]; exact List.drop_left' hA
    have d6 : (A ++ B ++ C ++ D ++ E).drop 6 = C ++ (D ++ E) := by
      rw [show A ++ B ++ C ++ D ++ E = (A ++ B) ++ (C ++ (D ++ E)) by simp]
      exact List.drop_left' (by simp; omega)
    have d8 : (A ++ B ++ C ++ D ++ E).drop 8 = D ++ E := by
      rw [show A ++ B ++ C ++ D ++ E = (A ++ B ++ C) ++ (D ++ E) by simp]
      exact List.drop_left' (by simp; omega)
    have d10 : (A ++ B ++ C ++ D ++ E).drop 10 = E := List.drop_left' (by simp; omega)
    rw [canonical, t4, d4, d6, d8, d10, List.take_left' hB, List.take_left' hC, List.take_left' hD]
  have lA := ll A
  have lB := ll B
  have lC := ll C
  have lD := ll D
  have lE := ll E
  rw [hcan]
  have s1 := slice_mid [] (A.flatMap hex2) (ch '-' :: B.flatMap hex2 ++ ch '-' :: C.flatMap hex2 ++
    ch '-' :: D.flatMap hex2 ++ ch '-' :: E.flatMap hex2) 0 8 rfl (by simp; omega)
  have s2 := slice_mid (A.flatMap hex2 ++ [ch '-']) (B.flatMap hex2) (ch '-' :: C.flatMap hex2 ++
    ch '-' :: D.flatMap hex2 ++ ch '-' :: E.flatMap hex2) 9 13 (by simp; omega) (by simp; omega)
  have s3 := slice_mid (A.flatMap hex2 ++ ch '-' :: B.flatMap hex2 ++ [ch '-']) (C.flatMap hex2)
    (ch '-' :: D.flatMap hex2 ++ ch '-' :: E.flatMap hex2) 14 18 (by simp; omega) (by simp; omega)
  have s4 := slice_mid (A.flatMap hex2 ++ ch '-' :: B.flatMap hex2 ++ ch '-' :: C.flatMap hex2 ++
    [ch '-']) (D.flatMap hex2) (ch '-' :: E.flatMap hex2) 19 23 (by simp; omega) (by simp; omega)
  have s5 := slice_mid (A.flatMap hex2 ++ ch '-' :: B.flatMap hex2 ++ ch '-' :: C.flatMap hex2 ++
    ch '-' :: D.flatMap hex2 ++ [ch '-']) (E.flatMap hex2) [] 24 36 (by simp; omega) (by simp; omega)
  simp only [List.nil_append, List.append_assoc, List.cons_append, List.append_nil] at s1 s2 s3 s4 s5 ⊢
  have hlen : (A.flatMap hex2 ++ ch '-' :: (B.flatMap hex2 ++ ch '-' :: (C.flatMap hex2 ++
      ch '-' :: (D.flatMap hex2 ++ ch '-' :: E.flatMap hex2)))).length = 36 := by simp; omega
  rw [fromStringLocal, hlen]
  simp only [Option.bind_eq_bind]
  generalize (A.flatMap hex2 ++ ch '-' :: (B.flatMap hex2 ++ ch '-' :: (C.flatMap hex2 ++
      ch '-' :: (D.flatMap hex2 ++ ch '-' :: E.flatMap hex2)))) = text at s1 s2 s3 s4 s5 ⊢
  have hst : ∀ (Q R src : Bytes) (a b i j : Nat), slice text i j = some (src.flatMap hex2) →
      Q.length = a → a + src.length = b → src.length ≤ R.length →
      decodePart (Q ++ R) a b text i j = some ((Q ++ src) ++ R.drop src.length) := by
    intro Q R src a b i j hs hQ hb hR
    rw [decodePart_eq _ a b text src i j hs hb (by rw [List.length_append]; omega), List.take_left' hQ,
      List.drop_append, List.drop_eq_nil_iff.2 (by omega), List.nil_append,
      show b - Q.length = src.length by omega]
  have e1 := hst [] old A 0 4 0 8 s1 rfl (by omega) (by omega)
  rw [List.nil_append, List.nil_append, hA] at e1
  rw [e1, Option.bind_some]
  have e2 := hst A (old.drop 4) B 4 6 9 13 s2 hA (by omega) (by rw [List.length_drop]; omega)
  rw [hB, List.drop_drop] at e2
  rw [e2, Option.bind_some]
  have e3 := hst (A ++ B) (old.drop 6) C 6 8 14 18 s3 (by rw [List.length_append]; omega) (by omega)
    (by rw [List.length_drop]; omega)
  rw [hC, List.drop_drop] at e3
  rw [e3, Option.bind_some]
  have e4 := hst (A ++ B ++ C) (old.drop 8) D 8 10 19 23 s4
    (by rw [List.length_append, List.length_append]; omega) (by omega)
    (by rw [List.length_drop]; omega)
  rw [hD, List.drop_drop] at e4
  rw [e4, Option.bind_some]
  have e5 := hst (A ++ B ++ C ++ D) (old.drop 10) E 10 16 24 36 s5
    (by rw [List.length_append, List.length_append, List.length_append]; omega) (by omega)
    (by rw [List.length_drop]; omega)
  have h16 : old.drop 16 = [] := by rw [List.drop_eq_nil_iff]; omega
  rw [hE, List.drop_drop, h16, List.append_nil] at e5
  rw [e5]
  simp only [List.append_assoc]

/-- C31: distinct identifiers have distinct texts. -/
theorem C31_text_injective (u v : Bytes) (hu : u.length = 16) (hv : v.length = 16)
    (h : toString u = toString v) : u = v := by
  rw [C31_text u hu, C31_text v hv] at h
  simp only [Option.some.injEq] at h
  have h1 := fromStringLocal_canonical u u hu hu
  have h2 := fromStringLocal_canonical u v hu hv
  rw [h, h2] at h1
  simpa using h1.symm

example := C31_text_injective (List.replicate 16 0x7f#8) (List.replicate 15 0x7f#8 ++ [0x7f#8]) (by decide) (by decide) (by decide +kernel)

/-- C31: the characters the parser takes for digits are the hexadecimal ones of either case, with their
values, and no others. -/
theorem C31_hex_digits : ∀ c : Byte, fromHexChar c =
    (if c ∈ bs "0123456789" then some (c - ch '0')
     else if c ∈ bs "abcdef" then some (c - ch 'a' + 10#8)
     else if c ∈ bs "ABCDEF" then some (c - ch 'A' + 10#8) else none) := by decide +kernel

/-- C254: parsing has no effect: the variable keeps its value for every text, or the call panics. -/
theorem C254_parse_violated (old text : Bytes) :
    fromString old text = none ∨ fromString old text = some old := by
  rw [fromString]
  cases fromStringLocal old text <;> simp

/-- C254: parsing the text of any other identifier leaves the old one. -/
theorem C254_parse_canonical_violated (old u : Bytes) (hold : old.length = 16) (h : u.length = 16) :
    (toString u).bind (fromString old) = some old := by
  rw [C31_text u h]
  simp [fromString, fromStringLocal_canonical old u hold h]

example := C254_parse_canonical_violated (List.replicate 16 9#8) (List.replicate 16 0x7f#8) (by decide) (by decide)

/-- C254: a text of fewer than 24 characters makes the parser panic. -/
theorem C254_parse_short_violated (old text : Bytes) (ht : text.length < 24) :
    fromString old text = none := by
  suffices h : fromStringLocal old text = none by rw [fromString, h]; rfl
  have h5 : ∀ u, decodePart u 10 16 text 24 text.length = none := by
    intro u; rw [decodePart, slice, if_neg (by omega)]; rfl
  rw [fromStringLocal]
  simp only [Option.bind_eq_bind, h5, Option.bind_fun_none]

example := C254_parse_short_violated (List.replicate 16 9#8) (bs "123e4567-e89b-12d3-a456") (by decide)

/-- C254: the helper parser returns the zero identifier for every text. -/
theorem C254_utility_parse_violated (text : Bytes) : utilityFromString text = List.replicate 16 0#8 := rfl

/-- C31: the integers shown are the first eight, last eight and first four bytes. -/
theorem C31_integers (u : Bytes) (h : u.length = 16) :
    firstUint64 u = some (BitVec.ofNat 64 (leVal (u.take 8))) ∧
    lastUint64 u = some (BitVec.ofNat 64 (leVal (u.drop 8))) ∧
    firstUint32 u = some (BitVec.ofNat 32 (leVal (u.take 4))) := by
  refine ⟨?_, ?_, ?_⟩
  · rw [firstUint64, sliceFrom, if_pos (by omega)]
    simp only [List.drop_zero, Option.bind_some]
    rw [C01_le64_load, if_pos (by omega)]
  · rw [lastUint64, sliceFrom, if_pos (by omega)]
    simp only [Option.bind_some]
    rw [C01_le64_load, if_pos (by simp; omega), List.take_of_length_le (by simp; omega)]
  · rw [firstUint32, sliceFrom, if_pos (by omega)]
    simp only [List.drop_zero, Option.bind_some]
    rw [C01_le32_load, if_pos (by omega)]

example := C31_integers [0x12, 0x3e, 0x45, 0x67, 0xe8, 0x9b, 0x12, 0xd3, 0xa4, 0x56, 0x42, 0x66, 0x14, 0x17, 0x40, 0x00] rfl

end Rfc4122
end Memar.Identifier
