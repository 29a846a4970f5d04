import Verif.Time.Model

namespace Memar.Time

theorem bm64 {x : Int} (h1 : -9223372036854775808 ≤ x) (h2 : x < 9223372036854775808) :
    x.bmod (2 ^ 64) = x := Int.bmod_eq_of_le (by omega) (by omega)

theorem bm32 {x : Int} (h1 : -2147483648 ≤ x) (h2 : x < 2147483648) :
    x.bmod (2 ^ 32) = x := Int.bmod_eq_of_le (by omega) (by omega)

theorem range64 (x : I64) : -9223372036854775808 ≤ x.toInt ∧ x.toInt < 9223372036854775808 := by
  have h1 := BitVec.le_toInt x
  have h2 := BitVec.toInt_lt (x := x)
  omega

theorem range32 (x : I32) : -2147483648 ≤ x.toInt ∧ x.toInt < 2147483648 := by
  have h1 := BitVec.le_toInt x
  have h2 := BitVec.toInt_lt (x := x)
  omega

/-- The facts about truncating division that linear arithmetic needs. -/
theorem tdiv_facts (D b : Int) (hb : 0 < b) :
    b * D.tdiv b + D.tmod b = D ∧ -b < D.tmod b ∧ D.tmod b < b ∧
    (0 ≤ D → 0 ≤ D.tmod b ∧ 0 ≤ D.tdiv b) ∧ (D ≤ 0 → D.tmod b ≤ 0 ∧ D.tdiv b ≤ 0) := by
  refine ⟨Int.mul_tdiv_add_tmod D b, Int.lt_tmod_of_pos D hb, Int.tmod_lt_of_pos D hb,
    fun h => ⟨Int.tmod_nonneg b h, Int.tdiv_nonneg h (by omega)⟩, fun h => ?_⟩
  have e1 := Int.neg_tdiv (a := -D) (b := b)
  have e2 := Int.neg_tmod (-D) b
  rw [Int.neg_neg] at e1 e2
  have h1 := Int.tdiv_nonneg (a := -D) (b := b) (by omega) (by omega)
  have h2 := Int.tmod_nonneg (a := -D) b (by omega)
  omega

theorem toInt_nsis : nanoSecondInSecond.toInt = 1000000000 := by decide

theorem toInt_secFromNano (d : I64) : (secFromNano d).toInt = d.toInt.tdiv 1000000000 := by
  have f := tdiv_facts d.toInt 1000000000 (by decide)
  have r := range64 d
  rw [secFromNano, BitVec.toInt_sdiv, toInt_nsis]
  exact bm64 (by omega) (by omega)

theorem toInt_truncate32 (x : I64) : (x.truncate 32).toInt = x.toInt.bmod (2 ^ 32) := by
  rw [BitVec.toInt_setWidth, BitVec.toInt_eq_toNat_bmod, Int.bmod_bmod_of_dvd (by decide)]

theorem toInt_toSecAndNano (d : I64) :
    (toSecAndNano d).1.toInt = d.toInt.tdiv 1000000000 ∧
    (toSecAndNano d).2.toInt = d.toInt.tmod 1000000000 := by
  have f := tdiv_facts d.toInt 1000000000 (by decide)
  have r := range64 d
  refine ⟨toInt_secFromNano d, ?_⟩
  have e1 : (toNanoSecond (secFromNano d)).toInt
      = d.toInt.tdiv 1000000000 * 1000000000 := by
    rw [toNanoSecond, BitVec.toInt_mul, toInt_secFromNano, toInt_nsis]
    exact bm64 (by omega) (by omega)
  have e2 : (d - toNanoSecond (secFromNano d)).toInt = d.toInt.tmod 1000000000 := by
    rw [BitVec.toInt_sub, e1, bm64 (by omega) (by omega)]; omega
  show ((d - toNanoSecond (secFromNano d)).truncate 32).toInt = _
  rw [toInt_truncate32, e2]
  exact bm32 (by omega) (by omega)

theorem toInt_fromSecAndNano {sec : I64} {nsec : I32}
    (h1 : -9223372036854775808 ≤ sec.toInt * 1000000000 + nsec.toInt)
    (h2 : sec.toInt * 1000000000 + nsec.toInt < 9223372036854775808) :
    (fromSecAndNano sec nsec).toInt = sec.toInt * 1000000000 + nsec.toInt := by
  rw [fromSecAndNano, BitVec.toInt_add, toNanoSecond, BitVec.toInt_mul, toInt_nsis,
    BitVec.toInt_signExtend_of_le (by decide), Int.bmod_add_bmod]
  exact bm64 h1 h2

end Memar.Time
