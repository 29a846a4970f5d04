import Verif.Binary.Model
import Verif.Binary.Spec

namespace Memar.Binary
open Memar Spec

theorem leDigits_length (n v : Nat) : (leDigits n v).length = n := by
  induction n generalizing v with
  | zero => rfl
  | succ n ih => simp [leDigits, ih]

theorem beDigits_length (n v : Nat) : (beDigits n v).length = n := by
  simp [beDigits, leDigits_length]

theorem leVal_leDigits (n v : Nat) : leVal (leDigits n v) = v % 256 ^ n := by
  induction n generalizing v with
  | zero => simp [leDigits, leVal, Nat.mod_one]
  | succ n ih =>
    simp only [leDigits, leVal, ih, BitVec.toNat_ofNat]
    have h : 256 ^ (n + 1) = 256 * 256 ^ n := by rw [Nat.pow_succ, Nat.mul_comm]
    rw [h, Nat.mod_mul]

theorem beVal_beDigits (n v : Nat) : beVal (beDigits n v) = v % 256 ^ n := by
  simp [beVal, beDigits, leVal_leDigits]

theorem leVal_lt (l : Bytes) : leVal l < 256 ^ l.length := by
  induction l with
  | nil => simp [leVal]
  | cons b r ih =>
    have := b.isLt
    simp only [leVal, List.length_cons, Nat.pow_succ]
    omega

theorem leDigits_leVal (l : Bytes) : leDigits l.length (leVal l) = l := by
  induction l with
  | nil => rfl
  | cons b r ih =>
    have := b.isLt
    simp only [leVal, List.length_cons, leDigits]
    congr 1
    · apply BitVec.eq_of_toNat_eq; simp; omega
    · have h : (b.toNat + 256 * leVal r) / 256 = leVal r := by omega
      rw [h, ih]

theorem beDigits_beVal (l : Bytes) : beDigits l.length (beVal l) = l := by
  have := leDigits_leVal l.reverse
  simp only [List.length_reverse] at this
  simp [beDigits, beVal, this]

/-! ### shift/or expressions are positional sums -/

theorem or_add (x y k : Nat) (h : x < 2 ^ k) : x ||| (y <<< k) = x + y * 2 ^ k := by
  rw [Nat.shiftLeft_eq, Nat.or_comm, Nat.mul_comm, ← Nat.two_pow_add_eq_or_of_lt h]
  omega

theorem shl_toNat {n} (x : Byte) (k : Nat) (h : k + 8 ≤ n) :
    (x.setWidth n <<< k).toNat = x.toNat <<< k := by
  have hx := x.isLt
  have hp : 2 ^ (k + 8) ≤ 2 ^ n := Nat.pow_le_pow_right (by omega) h
  have h8 : 2 ^ 8 ≤ 2 ^ n := Nat.pow_le_pow_right (by omega) (by omega)
  rw [BitVec.toNat_shiftLeft, BitVec.toNat_setWidth, Nat.mod_eq_of_lt (a := x.toNat) (by omega)]
  apply Nat.mod_eq_of_lt
  rw [Nat.shiftLeft_eq]
  calc x.toNat * 2 ^ k < 2 ^ 8 * 2 ^ k := Nat.mul_lt_mul_of_pos_right hx (Nat.pow_pos (by omega))
    _ = 2 ^ (k + 8) := by rw [Nat.pow_add, Nat.mul_comm]
    _ ≤ 2 ^ n := hp

theorem or2_toNat (x0 x1 : Byte) : (or2 x0 x1).toNat = leVal [x0, x1] := by
  have h0 := x0.isLt
  simp only [or2, BitVec.toNat_or]
  rw [shl_toNat x1 8 (by omega), BitVec.toNat_setWidth, Nat.mod_eq_of_lt (by omega),
    or_add _ _ 8 (by omega)]
  simp [leVal]; omega

theorem or4_toNat (x0 x1 x2 x3 : Byte) : (or4 x0 x1 x2 x3).toNat = leVal [x0, x1, x2, x3] := by
  have h0 := x0.isLt
  have h1 := x1.isLt
  have h2 := x2.isLt
  simp only [or4, BitVec.toNat_or]
  rw [shl_toNat x1 8 (by omega), shl_toNat x2 16 (by omega), shl_toNat x3 24 (by omega),
    BitVec.toNat_setWidth, Nat.mod_eq_of_lt (by omega),
    or_add _ _ 8 (by omega), or_add _ _ 16 (by omega), or_add _ _ 24 (by omega)]
  simp [leVal]; omega

theorem or8_toNat (x0 x1 x2 x3 x4 x5 x6 x7 : Byte) :
    (or8 x0 x1 x2 x3 x4 x5 x6 x7).toNat = leVal [x0, x1, x2, x3, x4, x5, x6, x7] := by
  have h0 := x0.isLt
  have h1 := x1.isLt
  have h2 := x2.isLt
  have h3 := x3.isLt
  have h4 := x4.isLt
  have h5 := x5.isLt
  have h6 := x6.isLt
  simp only [or8, BitVec.toNat_or]
  rw [shl_toNat x1 8 (by omega), shl_toNat x2 16 (by omega), shl_toNat x3 24 (by omega),
    shl_toNat x4 32 (by omega), shl_toNat x5 40 (by omega), shl_toNat x6 48 (by omega),
    shl_toNat x7 56 (by omega),
    BitVec.toNat_setWidth, Nat.mod_eq_of_lt (by omega),
    or_add _ _ 8 (by omega), or_add _ _ 16 (by omega), or_add _ _ 24 (by omega),
    or_add _ _ 32 (by omega), or_add _ _ 40 (by omega), or_add _ _ 48 (by omega),
    or_add _ _ 56 (by omega)]
  simp [leVal]; omega

theorem byteAt_eq {n} (v : BitVec n) (k : Nat) : byteAt v k = BitVec.ofNat 8 (v.toNat / 2 ^ k) := by
  apply BitVec.eq_of_toNat_eq
  simp [byteAt, Nat.shiftRight_eq_div_pow]

/-! ### closed forms -/

theorem two_of_length {l : Bytes} (h : 2 ≤ l.length) : ∃ a b r, l = a :: b :: r := by
  match l, h with
  | a :: b :: r, _ => exact ⟨a, b, r, rfl⟩

theorem four_of_length {l : Bytes} (h : 4 ≤ l.length) : ∃ a b c d r, l = a :: b :: c :: d :: r := by
  match l, h with
  | a :: b :: c :: d :: r, _ => exact ⟨a, b, c, d, r, rfl⟩

theorem eight_of_length {l : Bytes} (h : 8 ≤ l.length) :
    ∃ a b c d e f g i r, l = a :: b :: c :: d :: e :: f :: g :: i :: r := by
  match l, h with
  | a :: b :: c :: d :: e :: f :: g :: i :: r, _ => exact ⟨a, b, c, d, e, f, g, i, r, rfl⟩

theorem digits2 (v : U16) : leDigits 2 v.toNat = [byteAt v 0, byteAt v 8] := by
  simp [leDigits, byteAt_eq]

theorem digits4 (v : U32) :
    leDigits 4 v.toNat = [byteAt v 0, byteAt v 8, byteAt v 16, byteAt v 24] := by
  simp [leDigits, byteAt_eq, Nat.div_div_eq_div_mul]

theorem digits8 (v : U64) :
    leDigits 8 v.toNat = [byteAt v 0, byteAt v 8, byteAt v 16, byteAt v 24,
      byteAt v 32, byteAt v 40, byteAt v 48, byteAt v 56] := by
  simp [leDigits, byteAt_eq, Nat.div_div_eq_div_mul]

theorem eq_ofNat {n} {v : BitVec n} {k : Nat} (h : v.toNat = k) : v = BitVec.ofNat n k := by
  subst h; simp

end Memar.Binary
