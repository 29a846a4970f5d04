import Verif.Syllab.Lemmas

/-! Helper lemmas for the dynamically sized fields. -/

namespace Memar.Syllab
open Memar Memar.Binary Spec

/-- A dynamically sized field value. -/
inductive Val where
  | str (s : Bytes) | bytes (s : Bytes) | bools (s : List Bool)
  | u16s (s : List U16) | u32s (s : List U32) | u64s (s : List U64) | c128s (s : List (BitVec 128))
  deriving DecidableEq, Repr

/-- Number of elements. -/
def Val.count : Val → Nat
  | .str s | .bytes s => s.length
  | .bools s => s.length
  | .u16s s => s.length
  | .u32s s => s.length
  | .u64s s => s.length
  | .c128s s => s.length

/-- Element size in bytes. -/
def Val.esize : Val → Nat
  | .str _ | .bytes _ | .bools _ => 1
  | .u16s _ => 2
  | .u32s _ => 4
  | .u64s _ => 8
  | .c128s _ => 16

/-- Heap bytes taken by the value. -/
def Val.size (v : Val) : Nat := v.count * v.esize

/-- The Go setter of the value's type. -/
def Val.set (p : Bytes) : Val → U32 → U32 → Option (Bytes × U32)
  | .str s => setString p s
  | .bytes s => setByteArray p s
  | .bools s => setBoolArray p s
  | .u16s s => setUInt16Array p s
  | .u32s s => setUInt32Array p s
  | .u64s s => setUInt64Array p s
  | .c128s s => setComplex128Array p s

/-- The Go safe getter for values of the same type as `v`. -/
def Val.get (v : Val) (p : Bytes) (st : U32) : Option Val :=
  match v with
  | .str _ => (getString p st).map .str
  | .bytes _ => (getByteArray p st).map .bytes
  | .bools _ => (getBoolArray p st).map .bools
  | .u16s _ => (getUInt16Array p st).map .u16s
  | .u32s _ => (getUInt32Array p st).map .u32s
  | .u64s _ => (getUInt64Array p st).map .u64s
  | .c128s _ => (getComplex128Array p st).map .c128s

/-- The heap image of the value. -/
def Val.img : Val → Bytes
  | .str s | .bytes s => s
  | .bools s => s.map fun b => if b then 1 else 0
  | .u16s s => memOf 2 s
  | .u32s s => memOf 4 s
  | .u64s s => memOf 8 s
  | .c128s s => memOf 16 s

/-- The stack descriptor of the value. -/
def Val.desc (v : Val) (heap : U32) : Bytes := leDigits 4 heap.toNat ++ leDigits 4 v.count

theorem Val.img_length (v : Val) : v.img.length = v.size := by
  cases v <;> simp [Val.img, Val.size, Val.count, Val.esize, memOf_length]

theorem Val.desc_length (v : Val) (heap : U32) : (v.desc heap).length = 8 := by
  simp [Val.desc, leDigits_length]

theorem Val.count_le_size (v : Val) : v.count ≤ v.size := by
  unfold Val.size
  cases v <;> simp only [Val.esize] <;> omega

theorem goCopy_prefix {α} (d s t : List α) (h : d.length = s.length) : goCopy d (s ++ t) = s := by
  simp [goCopy, h, List.drop_eq_nil_of_le]

theorem setDyn_eq (p : Bytes) (n : Nat) (img : Bytes) (sz st heap : U32) (hn : n < 2 ^ 32)
    (h1 : st.toNat + 8 ≤ p.length) (hw : st.toNat + 8 ≤ 2 ^ 32) (h2 : heap.toNat + img.length ≤ p.length) :
    setDyn p (BitVec.ofNat 32 n) img sz st heap =
      some (overwrite (overwrite p st.toNat (leDigits 4 heap.toNat ++ leDigits 4 n)) heap.toNat img,
        heap + BitVec.ofNat 32 n * sz) := by
  have hd := setDesc_eq p st heap (BitVec.ofNat 32 n) h1 hw
  have hn' : (BitVec.ofNat 32 n).toNat = n := by simp; omega
  rw [hn'] at hd
  unfold setDyn
  simp only [Option.bind_eq_bind]
  rw [← Option.bind_assoc, hd, Option.bind_some, onSliceFrom_copy]
  · rfl
  · rw [overwrite_length]
    · exact h2
    · simp [leDigits_length]; omega

theorem setString_eq (p s : Bytes) (st heap : U32) :
    setString p s st heap = setDyn p (len32 s) s 1 st heap := by
  have a1 : st + 4 + 1 = st + 5 := BitVec.add_assoc _ _ _
  have a2 : st + 4 + 2 = st + 6 := BitVec.add_assoc _ _ _
  have a3 : st + 4 + 3 = st + 7 := BitVec.add_assoc _ _ _
  have a4 : len32 s * 1 = len32 s := BitVec.mul_one _
  simp only [setString, setDyn, setUInt32, Option.bind_eq_bind, Option.bind_assoc, a1, a2, a3, a4]

theorem Val.set_eq (v : Val) (p : Bytes) (st heap : U32) (h1 : st.toNat + 8 ≤ p.length)
    (h2 : heap.toNat + v.size ≤ p.length) (hp : p.length < 2 ^ 32) :
    ∃ next, v.set p st heap =
      some (overwrite (overwrite p st.toNat (v.desc heap)) heap.toNat v.img, next) ∧
      next.toNat = heap.toNat + v.size := by
  have hc := v.count_le_size
  have key : ∀ sz : U32, sz.toNat = v.esize →
      v.set p st heap = setDyn p (BitVec.ofNat 32 v.count) v.img sz st heap →
      ∃ next, v.set p st heap =
      some (overwrite (overwrite p st.toNat (v.desc heap)) heap.toNat v.img, next) ∧
      next.toNat = heap.toNat + v.size := by
    intro sz hsz he
    rw [he, setDyn_eq _ _ _ _ _ _ (by omega) h1 (by omega) (by rw [v.img_length]; omega)]
    refine ⟨_, rfl, ?_⟩
    rw [BitVec.toNat_add, BitVec.toNat_mul, hsz, BitVec.toNat_ofNat, Nat.mod_eq_of_lt (a := v.count) (by omega)]
    change (_ + v.size % _) % _ = _
    rw [Nat.mod_eq_of_lt (a := v.size) (by omega), Nat.mod_eq_of_lt (by omega)]
  cases v with
  | str s => exact key 1 rfl (setString_eq _ _ _ _)
  | bytes s => exact key 1 rfl rfl
  | bools s => exact key 1 rfl rfl
  | u16s s => exact key 2 rfl rfl
  | u32s s => exact key 4 rfl rfl
  | u64s s => exact key 8 rfl rfl
  | c128s s => exact key 16 rfl rfl

/-- The value is present in the buffer: its descriptor at `st`, its image at `heap`. -/
structure Stored (p : Bytes) (v : Val) (st hp : U32) : Prop where
  stack : st.toNat + 8 ≤ p.length
  heap : hp.toNat + v.size ≤ p.length
  len : p.length < 2 ^ 32
  desc : region p st.toNat 8 = v.desc hp
  img : region p hp.toNat v.size = v.img

theorem drop_of_region (p : Bytes) (i : Nat) (img : Bytes) (h : region p i img.length = img) :
    p.drop i = img ++ p.drop (i + img.length) := by
  have := List.take_append_drop img.length (p.drop i)
  rw [List.drop_drop] at this
  rw [← this]
  change region p i img.length ++ _ = _
  rw [h]

theorem ofMem_append {n} (sz : Nat) (hsz : 0 < sz) (hn : n = 8 * sz) (s : List (BitVec n)) (r : Bytes) :
    ∃ t, ofMem sz (memOf sz s ++ r) = s ++ t := by
  refine ⟨ofMemN sz (r.length / sz) r, ?_⟩
  rw [ofMem, List.length_append, memOf_length]
  rw [Nat.add_comm, Nat.add_mul_div_right _ _ hsz, Nat.add_comm, ofMemN_memOf sz hn]

theorem getDyn_eq {n} (sz : Nat) (hsz : 0 < sz) (hn : n = 8 * sz) (p : Bytes) (s : List (BitVec n))
    (st heap : U32) (hs : s.length < 2 ^ 32)
    (g : getUInt32 p st = some heap ∧ getUInt32 p (st + 4) = some (BitVec.ofNat 32 s.length))
    (hh : heap.toNat ≤ p.length) (hi : region p heap.toNat (memOf sz s).length = memOf sz s) :
    getDyn sz p st = some s := by
  simp only [getDyn, g.1, g.2, Option.bind_eq_bind, Option.bind_some, sliceFrom, if_pos hh]
  rw [drop_of_region _ _ _ hi]
  obtain ⟨t, ht⟩ := ofMem_append sz hsz hn s (p.drop (heap.toNat + (memOf sz s).length))
  rw [ht, goCopy_prefix]
  simp; omega

theorem Val.get_eq (v : Val) (p : Bytes) (st heap : U32) (h : Stored p v st heap) :
    v.get p st = some v := by
  have hc := v.count_le_size
  obtain ⟨h1, h2, h3, h4, h5⟩ := h
  have hn' : (BitVec.ofNat 32 v.count).toNat = v.count := by
    rw [BitVec.toNat_ofNat]; apply Nat.mod_eq_of_lt; omega
  have g := getDesc p st heap (BitVec.ofNat 32 v.count) h1 (by omega) (by rw [hn']; exact h4)
  have hh : heap.toNat ≤ p.length := by omega
  have hi : region p heap.toNat v.img.length = v.img := by rw [v.img_length]; exact h5
  have hd := drop_of_region _ _ _ hi
  have hb : v.count < 2 ^ 32 := by omega
  cases v with
  | str s =>
    simp only [Val.get, getString, getByteArray, g.1, g.2, Option.bind_eq_bind, Option.bind_some,
      sliceFrom, if_pos hh, hd, Val.img, hn']
    rw [goCopy_prefix _ _ _ (by simp [Val.count])]; rfl
  | bytes s =>
    simp only [Val.get, getByteArray, g.1, g.2, Option.bind_eq_bind, Option.bind_some,
      sliceFrom, if_pos hh, hd, Val.img, hn']
    rw [goCopy_prefix _ _ _ (by simp [Val.count])]; rfl
  | bools s =>
    simp only [Val.get, getBoolArray, g.1, g.2, Option.bind_eq_bind, Option.bind_some,
      sliceFrom, if_pos hh, hd, Val.img, List.map_append, hn']
    rw [goCopy_prefix _ _ _ (by simp [Val.count])]
    rw [List.map_map]
    have : ((fun b : Byte => b != 0) ∘ fun b : Bool => if b = true then (1 : Byte) else 0) = id := by
      funext b; cases b <;> rfl
    rw [this, List.map_id]; rfl
  | u16s s =>
    simp only [Val.get, getUInt16Array]
    rw [getDyn_eq 2 (by decide) rfl p s st heap hb g hh hi]; rfl
  | u32s s =>
    simp only [Val.get, getUInt32Array]
    rw [getDyn_eq 4 (by decide) rfl p s st heap hb g hh hi]; rfl
  | u64s s =>
    simp only [Val.get, getUInt64Array]
    rw [getDyn_eq 8 (by decide) rfl p s st heap hb g hh hi]; rfl
  | c128s s =>
    simp only [Val.get, getComplex128Array]
    rw [getDyn_eq 16 (by decide) rfl p s st heap hb g hh hi]; rfl

/-- setting stores the value -/
theorem Val.set_stored (v : Val) (p : Bytes) (st heap : U32) (h1 : st.toNat + 8 ≤ p.length)
    (h2 : heap.toNat + v.size ≤ p.length) (hp : p.length < 2 ^ 32)
    (hdis : st.toNat + 8 ≤ heap.toNat ∨ heap.toNat + v.size ≤ st.toNat) :
    ∃ p' next, v.set p st heap = some (p', next) ∧ next.toNat = heap.toNat + v.size ∧
      p'.length = p.length ∧ Stored p' v st heap ∧
      (∀ i n, (i + n ≤ st.toNat ∨ st.toNat + 8 ≤ i) → (i + n ≤ heap.toNat ∨ heap.toNat + v.size ≤ i) →
        region p' i n = region p i n) := by
  obtain ⟨next, he, hn⟩ := v.set_eq p st heap h1 h2 hp
  have hdl := v.desc_length heap
  have hil := v.img_length
  have hl1 := overwrite_length p st.toNat (v.desc heap) (by omega)
  have hl2 := overwrite_length (overwrite p st.toNat (v.desc heap)) heap.toNat v.img (by omega)
  refine ⟨_, next, he, hn, by omega, ⟨by omega, by omega, by omega, ?_, ?_⟩, ?_⟩
  · rw [region_overwrite_disjoint _ _ _ _ _ (by omega) (by omega)]
    have := region_overwrite_same p st.toNat (v.desc heap) (by omega)
    rwa [hdl] at this
  · have := region_overwrite_same (overwrite p st.toNat (v.desc heap)) heap.toNat v.img (by omega)
    rwa [hil] at this
  · intro i n hi1 hi2
    rw [region_overwrite_disjoint _ _ _ _ _ (by omega) (by omega),
      region_overwrite_disjoint _ _ _ _ _ (by omega) (by omega)]

theorem region_one_get (p q : Bytes) (i : Nat) (h : region p i 1 = region q i 1) : p[i]? = q[i]? := by
  have := congrArg (fun r => r[0]?) h
  simpa [region_get] using this

end Memar.Syllab
