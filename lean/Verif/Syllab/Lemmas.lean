import Verif.BaseLemmas
import Verif.Binary.Lemmas
import Verif.Syllab.Model

namespace Memar.Syllab
open Memar Memar.Binary Spec

theorem sbyteAt_eq {n} (v : BitVec n) (k : Nat) (h : k + 8 ≤ n) : sbyteAt v k = byteAt v k := by
  apply BitVec.eq_of_getLsbD_eq
  intro i hi
  simp [sbyteAt, byteAt, BitVec.getLsbD_sshiftRight]
  have h1 : ¬ n ≤ i := by omega
  have h2 : k + i < n := by omega
  simp [h1, h2]

theorem idx (i : U32) (k : Nat) (h : i.toNat + k < 2 ^ 32) :
    (i + BitVec.ofNat 32 k).toNat = i.toNat + k := by
  simp only [BitVec.toNat_add, BitVec.toNat_ofNat]
  omega

theorem setUInt16_eq (p : Bytes) (i : U32) (n : U16) (h : i.toNat + 2 ≤ p.length)
    (hw : i.toNat + 2 ≤ 2 ^ 32) :
    setUInt16 p i n = some (overwrite p i.toNat (leDigits 2 n.toNat)) := by
  have e1 : (i + 1).toNat = i.toNat + 1 := idx i 1 (by omega)
  simp only [setUInt16, e1, digits2]
  rw [setAt_first _ _ _ (by omega)]
  simp only [Option.bind_eq_bind, Option.bind_some]
  exact setAt_overwrite p i.toNat [byteAt n 0] (byteAt n 8) (by simp; omega)

theorem setUInt32_eq (p : Bytes) (i : U32) (n : U32) (h : i.toNat + 4 ≤ p.length)
    (hw : i.toNat + 4 ≤ 2 ^ 32) :
    setUInt32 p i n = some (overwrite p i.toNat (leDigits 4 n.toNat)) := by
  have e1 : (i + 1).toNat = i.toNat + 1 := idx i 1 (by omega)
  have e2 : (i + 2).toNat = i.toNat + 2 := idx i 2 (by omega)
  have e3 : (i + 3).toNat = i.toNat + 3 := idx i 3 (by omega)
  simp only [setUInt32, e1, e2, e3, digits4]
  rw [setAt_first _ _ _ (by omega)]
  simp only [Option.bind_eq_bind, Option.bind_some]
  have s1 := setAt_overwrite p i.toNat [byteAt n 0] (byteAt n 8) (by simp; omega)
  have s2 := setAt_overwrite p i.toNat [byteAt n 0, byteAt n 8] (byteAt n 16) (by simp; omega)
  have s3 := setAt_overwrite p i.toNat [byteAt n 0, byteAt n 8, byteAt n 16] (byteAt n 24) (by simp; omega)
  simp only [List.length_cons, List.length_nil, List.cons_append, List.nil_append, Nat.reduceAdd] at s1 s2 s3
  simp only [s1, s2, s3, Option.bind_some]

theorem setUInt64_eq (p : Bytes) (i : U32) (n : U64) (h : i.toNat + 8 ≤ p.length)
    (hw : i.toNat + 8 ≤ 2 ^ 32) :
    setUInt64 p i n = some (overwrite p i.toNat (leDigits 8 n.toNat)) := by
  have e1 : (i + 1).toNat = i.toNat + 1 := idx i 1 (by omega)
  have e2 : (i + 2).toNat = i.toNat + 2 := idx i 2 (by omega)
  have e3 : (i + 3).toNat = i.toNat + 3 := idx i 3 (by omega)
  have e4 : (i + 4).toNat = i.toNat + 4 := idx i 4 (by omega)
  have e5 : (i + 5).toNat = i.toNat + 5 := idx i 5 (by omega)
  have e6 : (i + 6).toNat = i.toNat + 6 := idx i 6 (by omega)
  have e7 : (i + 7).toNat = i.toNat + 7 := idx i 7 (by omega)
  simp only [setUInt64, e1, e2, e3, e4, e5, e6, e7, digits8]
  rw [setAt_first _ _ _ (by omega)]
  simp only [Option.bind_eq_bind, Option.bind_some]
  have s1 := setAt_overwrite p i.toNat [byteAt n 0] (byteAt n 8) (by simp; omega)
  have s2 := setAt_overwrite p i.toNat [byteAt n 0, byteAt n 8] (byteAt n 16) (by simp; omega)
  have s3 := setAt_overwrite p i.toNat [byteAt n 0, byteAt n 8, byteAt n 16] (byteAt n 24) (by simp; omega)
  have s4 := setAt_overwrite p i.toNat [byteAt n 0, byteAt n 8, byteAt n 16, byteAt n 24]
    (byteAt n 32) (by simp; omega)
  have s5 := setAt_overwrite p i.toNat [byteAt n 0, byteAt n 8, byteAt n 16, byteAt n 24, byteAt n 32]
    (byteAt n 40) (by simp; omega)
  have s6 := setAt_overwrite p i.toNat [byteAt n 0, byteAt n 8, byteAt n 16, byteAt n 24, byteAt n 32,
    byteAt n 40] (byteAt n 48) (by simp; omega)
  have s7 := setAt_overwrite p i.toNat [byteAt n 0, byteAt n 8, byteAt n 16, byteAt n 24, byteAt n 32,
    byteAt n 40, byteAt n 48] (byteAt n 56) (by simp; omega)
  simp only [List.length_cons, List.length_nil, List.cons_append, List.nil_append, Nat.reduceAdd] at s1 s2 s3 s4 s5 s6 s7
  simp only [s1, s2, s3, s4, s5, s6, s7, Option.bind_some]

theorem setInt16_eq (p : Bytes) (i : U32) (n : U16) : setInt16 p i n = setUInt16 p i n := by
  simp [setInt16, setUInt16, sbyteAt_eq]
theorem setInt32_eq (p : Bytes) (i : U32) (n : U32) : setInt32 p i n = setUInt32 p i n := by
  simp [setInt32, setUInt32, sbyteAt_eq]
theorem setInt64_eq (p : Bytes) (i : U32) (n : U64) : setInt64 p i n = setUInt64 p i n := by
  simp [setInt64, setUInt64, sbyteAt_eq]

/-- the `k`-th byte of a region -/
theorem get_of_region {p r : Bytes} {i n : Nat} (h : region p i n = r) (k : Nat) (hk : k < n) :
    p[i + k]? = r[k]? := by
  rw [← h, region_get, if_pos hk]

theorem getUInt16_eq (p : Bytes) (i : U32) (h : i.toNat + 2 ≤ p.length) (hw : i.toNat + 2 ≤ 2 ^ 32) :
    getUInt16 p i = some (BitVec.ofNat 16 (leVal (region p i.toNat 2))) := by
  have e1 : (i + 1).toNat = i.toNat + 1 := idx i 1 (by omega)
  have hl := region_length p i.toNat 2 h
  obtain ⟨r, hr⟩ : ∃ r, region p i.toNat 2 = r := ⟨_, rfl⟩
  rw [hr] at hl ⊢
  match r, hl with
  | [a, b], _ =>
    have g0 := get_of_region hr 0 (by omega)
    have g1 := get_of_region hr 1 (by omega)
    simp at g0 g1
    simp only [getUInt16, e1, g0, g1, eq_ofNat (or2_toNat a b), Option.bind_eq_bind, Option.bind_some]

theorem getUInt32_eq (p : Bytes) (i : U32) (h : i.toNat + 4 ≤ p.length) (hw : i.toNat + 4 ≤ 2 ^ 32) :
    getUInt32 p i = some (BitVec.ofNat 32 (leVal (region p i.toNat 4))) := by
  have e1 : (i + 1).toNat = i.toNat + 1 := idx i 1 (by omega)
  have e2 : (i + 2).toNat = i.toNat + 2 := idx i 2 (by omega)
  have e3 : (i + 3).toNat = i.toNat + 3 := idx i 3 (by omega)
  have hl := region_length p i.toNat 4 h
  obtain ⟨r, hr⟩ : ∃ r, region p i.toNat 4 = r := ⟨_, rfl⟩
  rw [hr] at hl ⊢
  match r, hl with
  | [a, b, c, d], _ =>
    have g0 := get_of_region hr 0 (by omega)
    have g1 := get_of_region hr 1 (by omega)
    have g2 := get_of_region hr 2 (by omega)
    have g3 := get_of_region hr 3 (by omega)
    simp at g0 g1 g2 g3
    simp only [getUInt32, e1, e2, e3, g0, g1, g2, g3, eq_ofNat (or4_toNat a b c d), Option.bind_eq_bind, Option.bind_some]

theorem getUInt64_eq (p : Bytes) (i : U32) (h : i.toNat + 8 ≤ p.length) (hw : i.toNat + 8 ≤ 2 ^ 32) :
    getUInt64 p i = some (BitVec.ofNat 64 (leVal (region p i.toNat 8))) := by
  have e1 : (i + 1).toNat = i.toNat + 1 := idx i 1 (by omega)
  have e2 : (i + 2).toNat = i.toNat + 2 := idx i 2 (by omega)
  have e3 : (i + 3).toNat = i.toNat + 3 := idx i 3 (by omega)
  have e4 : (i + 4).toNat = i.toNat + 4 := idx i 4 (by omega)
  have e5 : (i + 5).toNat = i.toNat + 5 := idx i 5 (by omega)
  have e6 : (i + 6).toNat = i.toNat + 6 := idx i 6 (by omega)
  have e7 : (i + 7).toNat = i.toNat + 7 := idx i 7 (by omega)
  have hl := region_length p i.toNat 8 h
  obtain ⟨r, hr⟩ : ∃ r, region p i.toNat 8 = r := ⟨_, rfl⟩
  rw [hr] at hl ⊢
  match r, hl with
  | [a, b, c, d, e, f, g, q], _ =>
    have g0 := get_of_region hr 0 (by omega)
    have g1 := get_of_region hr 1 (by omega)
    have g2 := get_of_region hr 2 (by omega)
    have g3 := get_of_region hr 3 (by omega)
    have g4 := get_of_region hr 4 (by omega)
    have g5 := get_of_region hr 5 (by omega)
    have g6 := get_of_region hr 6 (by omega)
    have g7 := get_of_region hr 7 (by omega)
    simp at g0 g1 g2 g3 g4 g5 g6 g7
    simp only [getUInt64, e1, e2, e3, e4, e5, e6, e7, g0, g1, g2, g3, g4, g5, g6, g7,
      eq_ofNat (or8_toNat a b c d e f g q), Option.bind_eq_bind, Option.bind_some]

/-- the descriptor write of the dynamic setters -/
theorem setDesc_eq (p : Bytes) (st a l : U32) (h : st.toNat + 8 ≤ p.length)
    (hw : st.toNat + 8 ≤ 2 ^ 32) :
    (setUInt32 p st a).bind (fun p => setUInt32 p (st + 4) l) =
      some (overwrite p st.toNat (leDigits 4 a.toNat ++ leDigits 4 l.toNat)) := by
  have e4 : (st + 4).toNat = st.toNat + 4 := idx st 4 (by omega)
  have hl := overwrite_length p st.toNat (leDigits 4 a.toNat) (by rw [leDigits_length]; omega)
  rw [setUInt32_eq p st a (by omega) (by omega), Option.bind_some,
    setUInt32_eq _ _ _ (by omega) (by omega), e4]
  have := overwrite_overwrite_adj p st.toNat (leDigits 4 a.toNat) (leDigits 4 l.toNat)
    (by rw [leDigits_length, leDigits_length]; omega)
  rw [leDigits_length] at this
  rw [this]

theorem region_append (p : Bytes) (i n m : Nat) : region p i (n + m) = region p i n ++ region p (i + n) m := by
  simp [region, List.take_add, List.drop_drop]

theorem ofNat_leVal_digits {n} (sz : Nat) (hn : n = 8 * sz) (v : BitVec n) :
    BitVec.ofNat n (leVal (leDigits sz v.toNat)) = v := by
  rw [leVal_leDigits]
  apply BitVec.eq_of_toNat_eq
  have := v.isLt
  subst hn
  rw [BitVec.toNat_ofNat, show (256 : Nat) = 2 ^ 8 from rfl, ← Nat.pow_mul]
  rw [Nat.mod_eq_of_lt this, Nat.mod_eq_of_lt this]

/-- reading a descriptor -/
theorem getDesc (p : Bytes) (st a l : U32) (h : st.toNat + 8 ≤ p.length) (hw : st.toNat + 8 ≤ 2 ^ 32)
    (hr : region p st.toNat 8 = leDigits 4 a.toNat ++ leDigits 4 l.toNat) :
    getUInt32 p st = some a ∧ getUInt32 p (st + 4) = some l := by
  have e4 : (st + 4).toNat = st.toNat + 4 := idx st 4 (by omega)
  have hsplit := region_append p st.toNat 4 4
  rw [hr] at hsplit
  have hl1 := region_length p st.toNat 4 (by omega)
  have hinj := List.append_inj hsplit (by rw [leDigits_length, hl1])
  constructor
  · rw [getUInt32_eq _ _ (by omega) (by omega), ← hinj.1, ofNat_leVal_digits 4 rfl]
  · rw [getUInt32_eq _ _ (by omega) (by omega), e4, ← hinj.2, ofNat_leVal_digits 4 rfl]

theorem memOf_length {n} (sz : Nat) (s : List (BitVec n)) : (memOf sz s).length = s.length * sz := by
  induction s with
  | nil => simp [memOf]
  | cons v r ih =>
    simp only [memOf, List.flatMap_cons, List.length_append, leDigits_length, List.length_cons] at ih ⊢
    rw [ih, Nat.succ_mul]; omega

theorem ofMemN_memOf {n} (sz : Nat) (hn : n = 8 * sz) (s : List (BitVec n)) (r : Bytes) (k : Nat) :
    (ofMemN sz (s.length + k) (memOf sz s ++ r) : List (BitVec n)) = s ++ ofMemN sz k r := by
  induction s with
  | nil => simp [memOf]
  | cons v t ih =>
    have h1 : memOf sz (v :: t) ++ r = leDigits sz v.toNat ++ (memOf sz t ++ r) := by
      simp [memOf]
    rw [h1, List.length_cons, Nat.add_right_comm, ofMemN]
    have hd := leDigits_length sz v.toNat
    rw [List.take_left' hd, List.drop_left' hd, ih, ofNat_leVal_digits sz hn]
    rfl

theorem getInt16_eq (p : Bytes) (i : U32) : getInt16 p i = getUInt16 p i := rfl
theorem getInt32_eq (p : Bytes) (i : U32) : getInt32 p i = getUInt32 p i := rfl
theorem getInt64_eq (p : Bytes) (i : U32) : getInt64 p i = getUInt64 p i := rfl

end Memar.Syllab
