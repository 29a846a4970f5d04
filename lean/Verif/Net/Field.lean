import Verif.Binary.Props
import Verif.BaseLemmas

/-!
# Reading and writing header fields of a packet held in a byte slice

The accessor methods of the packet types are built from the few expressions named here.
-/

namespace Memar.Net
open Memar Binary Binary.Spec

/-- Go `binary.BigEndian(p[i:]).Uint16()` (binary/be-in-le-cpu.go:12-15). -/
def get16 (p : Bytes) (i : Nat) : Option U16 := (sliceFrom p i).bind BE.uint16
/-- Go `binary.BigEndian(p[i:]).Uint32()` (binary/be-in-le-cpu.go:16-19). -/
def get32 (p : Bytes) (i : Nat) : Option U32 := (sliceFrom p i).bind BE.uint32
/-- Go `binary.BigEndian(p[i:]).PutUint16(v)` (binary/be-in-le-cpu.go:27-31). -/
def put16 (p : Bytes) (i : Nat) (v : U16) : Option Bytes := onSliceFrom p i (BE.putUint16 · v)
/-- Go `binary.BigEndian(p[i:]).PutUint32(v)` (binary/be-in-le-cpu.go:32-38). -/
def put32 (p : Bytes) (i : Nat) (v : U32) : Option Bytes := onSliceFrom p i (BE.putUint32 · v)
/-- Go `copy(a[:], p[i:])` into a new array `a` of `n` zero bytes. -/
def getArr (p : Bytes) (i n : Nat) : Option Bytes :=
  (sliceFrom p i).map (goCopy (List.replicate n 0#8))
/-- Go `copy(p[i:], d)`. -/
def putArr (p : Bytes) (i : Nat) (d : Bytes) : Option Bytes :=
  onSliceFrom p i (fun t => some (goCopy t d))
/-- Go `p[i] = f(p[i])`. -/
def modAt (p : Bytes) (i : Nat) (f : Byte → Byte) : Option Bytes :=
  p[i]?.bind fun b => setAt p i (f b)

/-! ## What they do -/

theorem get16_eq (p : Bytes) (i : Nat) :
    get16 p i = if i + 2 ≤ p.length then some (BitVec.ofNat 16 (beVal (region p i 2))) else none := by
  unfold get16 sliceFrom
  split
  · simp only [Option.bind_some, C01_be16_load, List.length_drop, region]
    split <;> split <;> first | rfl | omega
  · rw [if_neg (by omega)]; rfl

theorem get32_eq (p : Bytes) (i : Nat) :
    get32 p i = if i + 4 ≤ p.length then some (BitVec.ofNat 32 (beVal (region p i 4))) else none := by
  unfold get32 sliceFrom
  split
  · simp only [Option.bind_some, C01_be32_load, List.length_drop, region]
    split <;> split <;> first | rfl | omega
  · rw [if_neg (by omega)]; rfl

theorem put16_eq (p : Bytes) (i : Nat) (v : U16) :
    put16 p i v = if i + 2 ≤ p.length then some (overwrite p i (beDigits 2 v.toNat)) else none := by
  unfold put16 onSliceFrom sliceFrom
  split
  · simp only [Option.bind_eq_bind, Option.bind_some, C01_be16_store, List.length_drop]
    split
    · rw [if_pos (by omega)]
      simp [overwrite, beDigits_length, List.drop_drop]
    · rw [if_neg (by omega)]; rfl
  · rw [if_neg (by omega)]; rfl

theorem put32_eq (p : Bytes) (i : Nat) (v : U32) :
    put32 p i v = if i + 4 ≤ p.length then some (overwrite p i (beDigits 4 v.toNat)) else none := by
  unfold put32 onSliceFrom sliceFrom
  split
  · simp only [Option.bind_eq_bind, Option.bind_some, C01_be32_store, List.length_drop]
    split
    · rw [if_pos (by omega)]
      simp [overwrite, beDigits_length, List.drop_drop]
    · rw [if_neg (by omega)]; rfl
  · rw [if_neg (by omega)]; rfl

theorem put16_pos (p : Bytes) (i : Nat) (v : U16) (h : i + 2 ≤ p.length) :
    put16 p i v = some (overwrite p i (beDigits 2 v.toNat)) := by rw [put16_eq, if_pos h]

theorem put32_pos (p : Bytes) (i : Nat) (v : U32) (h : i + 4 ≤ p.length) :
    put32 p i v = some (overwrite p i (beDigits 4 v.toNat)) := by rw [put32_eq, if_pos h]

theorem getArr_eq (p : Bytes) (i n : Nat) (h : i + n ≤ p.length) :
    getArr p i n = some (region p i n) := by
  have hz : (List.replicate n 0#8).drop (p.drop i).length = [] := by simp; omega
  simp only [getArr, sliceFrom, if_pos (show i ≤ p.length by omega), Option.map_some, goCopy,
    List.length_replicate, region, hz, List.append_nil]

theorem putArr_eq (p : Bytes) (i : Nat) (d : Bytes) (h : i + d.length ≤ p.length) :
    putArr p i d = some (overwrite p i d) := onSliceFrom_copy p i d h

theorem modAt_eq (p : Bytes) (i : Nat) (f : Byte → Byte) (h : i < p.length) :
    modAt p i f = some (overwrite p i [f p[i]]) := by
  simp [modAt, h, setAt_first]

/-! ## Reading after writing -/

theorem get16_same (p : Bytes) (i : Nat) (v : U16) (h : i + 2 ≤ p.length) :
    get16 (overwrite p i (beDigits 2 v.toNat)) i = some v := by
  have hl := beDigits_length 2 v.toNat
  have hr := region_overwrite_same p i (beDigits 2 v.toNat) (by omega)
  rw [hl] at hr
  rw [get16_eq, overwrite_length _ _ _ (by omega), if_pos h, hr, beVal_beDigits]
  congr 1
  apply BitVec.eq_of_toNat_eq
  have := v.isLt
  simp
  omega

theorem get32_same (p : Bytes) (i : Nat) (v : U32) (h : i + 4 ≤ p.length) :
    get32 (overwrite p i (beDigits 4 v.toNat)) i = some v := by
  have hl := beDigits_length 4 v.toNat
  have hr := region_overwrite_same p i (beDigits 4 v.toNat) (by omega)
  rw [hl] at hr
  rw [get32_eq, overwrite_length _ _ _ (by omega), if_pos h, hr, beVal_beDigits]
  congr 1
  apply BitVec.eq_of_toNat_eq
  have := v.isLt
  simp
  omega

theorem get16_disjoint (p : Bytes) (i j : Nat) (d : Bytes) (h : i + d.length ≤ p.length)
    (hd : j + 2 ≤ i ∨ i + d.length ≤ j) : get16 (overwrite p i d) j = get16 p j := by
  rw [get16_eq, get16_eq, overwrite_length _ _ _ h, region_overwrite_disjoint _ _ _ _ _ h hd]

theorem get32_disjoint (p : Bytes) (i j : Nat) (d : Bytes) (h : i + d.length ≤ p.length)
    (hd : j + 4 ≤ i ∨ i + d.length ≤ j) : get32 (overwrite p i d) j = get32 p j := by
  rw [get32_eq, get32_eq, overwrite_length _ _ _ h, region_overwrite_disjoint _ _ _ _ _ h hd]

theorem getArr_same (p : Bytes) (i : Nat) (d : Bytes) (h : i + d.length ≤ p.length) :
    getArr (overwrite p i d) i d.length = some d := by
  rw [getArr_eq _ _ _ (by rw [overwrite_length _ _ _ h]; exact h), region_overwrite_same _ _ _ h]

theorem getArr_disjoint (p : Bytes) (i j n : Nat) (d : Bytes) (h : i + d.length ≤ p.length)
    (hn : j + n ≤ p.length) (hd : j + n ≤ i ∨ i + d.length ≤ j) :
    getArr (overwrite p i d) j n = getArr p j n := by
  rw [getArr_eq _ _ _ (by rw [overwrite_length _ _ _ h]; exact hn), getArr_eq _ _ _ hn,
    region_overwrite_disjoint _ _ _ _ _ h hd]

theorem getElem_disjoint (p : Bytes) (i j : Nat) (d : Bytes) (h : i + d.length ≤ p.length)
    (hd : j < i ∨ i + d.length ≤ j) : (overwrite p i d)[j]? = p[j]? := by
  rw [overwrite_get _ _ _ h, if_neg (by omega)]

theorem getElem_same (p : Bytes) (i : Nat) (b : Byte) (h : i < p.length) :
    (overwrite p i [b])[i]? = some b := by
  rw [overwrite_get _ _ _ (by simp; omega), if_pos (by simp)]; simp

theorem drop_disjoint (p : Bytes) (i j : Nat) (d : Bytes) (h : i + d.length ≤ p.length)
    (hd : i + d.length ≤ j) : (overwrite p i d).drop j = p.drop j := by
  apply List.ext_getElem?
  intro k
  rw [List.getElem?_drop, List.getElem?_drop, overwrite_get _ _ _ h, if_neg (by omega)]

theorem take_disjoint (p : Bytes) (i j : Nat) (d : Bytes) (h : i + d.length ≤ p.length)
    (hd : j ≤ i) : (overwrite p i d).take j = p.take j := by
  apply List.ext_getElem?
  intro k
  by_cases hk : k < j
  · rw [List.getElem?_take_of_lt hk, List.getElem?_take_of_lt hk, overwrite_get _ _ _ h,
      if_neg (by omega)]
  · rw [List.getElem?_take_eq_none (by omega), List.getElem?_take_eq_none (by omega)]

end Memar.Net
