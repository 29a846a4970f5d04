import Verif.Syllab.Dyn

/-!
# C04, C05: syllab strings, arrays and arrays of strings

`Val` (Verif/Syllab/Dyn.lean) enumerates the dynamically sized field types; `Val.set` and `Val.get`
dispatch to the modelled Go functions, `Val.size` is the number of heap bytes of the value.
-/

namespace Memar.Syllab
open Memar Memar.Binary Spec

/-- **C04**: encoding a string or array whose descriptor and contents lie inside the buffer and do not
overlap succeeds, decoding gives the value back, the returned heap address is the end of the contents,
and every byte outside descriptor and contents is unchanged. -/
theorem C04_field_roundtrip (v : Val) (p : Bytes) (st heap : U32) (h1 : st.toNat + 8 ≤ p.length)
    (h2 : heap.toNat + v.size ≤ p.length) (hp : p.length < 2 ^ 32)
    (hdis : st.toNat + 8 ≤ heap.toNat ∨ heap.toNat + v.size ≤ st.toNat) :
    ∃ p' next, v.set p st heap = some (p', next) ∧ next.toNat = heap.toNat + v.size ∧
      v.get p' st = some v ∧ p'.length = p.length ∧
      ∀ j, (j < st.toNat ∨ st.toNat + 8 ≤ j) → (j < heap.toNat ∨ heap.toNat + v.size ≤ j) →
        p'[j]? = p[j]? := by
  obtain ⟨p', next, he, hn, hl, hs, hf⟩ := v.set_stored p st heap h1 h2 hp hdis
  refine ⟨p', next, he, hn, v.get_eq p' st heap hs, hl, ?_⟩
  intro j hj1 hj2
  exact region_one_get _ _ _ (hf j 1 (by omega) (by omega))

/-- non-vacuity: three 16-bit words behind a descriptor -/
example : (Val.u16s [0x0102, 0x0304, 0x0506]).set (List.replicate 15 0xFF) 0 8 =
    some ([8, 0, 0, 0, 3, 0, 0, 0, 2, 1, 4, 3, 6, 5, 0xFF], 14) := by decide

/-- A record: the fields' descriptors follow each other on the stack from `st`, the contents follow
each other on the heap from `heap`; this is the code `ToSyllab` methods are made of. -/
def encodeAll (p : Bytes) : List Val → U32 → U32 → Option (Bytes × U32)
  | [], _, heap => some (p, heap)
  | v :: vs, st, heap => do
    let (p, heap) ← v.set p st heap
    encodeAll p vs (st + 8) heap

/-- Heap bytes of all fields. -/
def totalSize (vs : List Val) : Nat := (vs.map Val.size).sum

theorem encodeAll_spec (vs : List Val) : ∀ (p : Bytes) (st heap : U32),
    st.toNat + 8 * vs.length ≤ heap.toNat → heap.toNat + totalSize vs ≤ p.length →
    p.length < 2 ^ 32 →
    ∃ p' next, encodeAll p vs st heap = some (p', next) ∧
      next.toNat = heap.toNat + totalSize vs ∧ p'.length = p.length ∧
      (∀ i n, (i + n ≤ st.toNat ∨ st.toNat + 8 * vs.length ≤ i) →
        (i + n ≤ heap.toNat ∨ heap.toNat + totalSize vs ≤ i) → region p' i n = region p i n) ∧
      ∀ k (v : Val), vs[k]? = some v → ∃ h : U32, Stored p' v (st + BitVec.ofNat 32 (8 * k)) h := by
  induction vs with
  | nil =>
    intro p st heap _ _ _
    exact ⟨p, heap, rfl, by simp [totalSize], rfl, fun _ _ _ _ => rfl, by simp⟩
  | cons v vs ih =>
    intro p st heap h1 h2 h3
    have ht : totalSize (v :: vs) = v.size + totalSize vs := by simp [totalSize]
    simp only [List.length_cons] at h1 ⊢
    rw [ht] at h2 ⊢
    have e8 : (st + 8).toNat = st.toNat + 8 := idx st 8 (by omega)
    obtain ⟨p1, n1, he, hn, hl, hs, hf⟩ := v.set_stored p st heap (by omega) (by omega) h3 (by omega)
    obtain ⟨p2, n2, he2, hn2, hl2, hf2, hk2⟩ := ih p1 (st + 8) n1 (by omega) (by omega) (by omega)
    refine ⟨p2, n2, ?_, by omega, by omega, ?_, ?_⟩
    · simp only [encodeAll, he, Option.bind_eq_bind, Option.bind_some]; exact he2
    · intro i n hi1 hi2
      rw [hf2 i n (by omega) (by omega), hf i n (by omega) (by omega)]
    · intro k w hk
      cases k with
      | zero =>
        simp at hk
        subst hk
        refine ⟨heap, ?_⟩
        simp only [Nat.mul_zero, BitVec.add_zero]
        obtain ⟨s1, s2, s3, s4, s5⟩ := hs
        refine ⟨by omega, by omega, by omega, ?_, ?_⟩
        · rw [hf2 _ _ (by omega) (by omega)]; exact s4
        · rw [hf2 _ _ (by omega) (by omega)]; exact s5
      | succ k =>
        simp at hk
        obtain ⟨h, hh⟩ := hk2 k w hk
        refine ⟨h, ?_⟩
        have : st + BitVec.ofNat 32 (8 * (k + 1)) = st + 8 + BitVec.ofNat 32 (8 * k) := by
          apply BitVec.eq_of_toNat_eq
          simp only [BitVec.toNat_add, BitVec.toNat_ofNat, show (8 : U32).toNat = 8 from rfl]
          omega
        rw [this]; exact hh

/-- **C04** for whole records: any list of strings and arrays encoded one after the other decodes,
field by field, to exactly that list. -/
theorem C04_record_roundtrip (vs : List Val) (p : Bytes) (st heap : U32)
    (hlay : st.toNat + 8 * vs.length ≤ heap.toNat) (hfit : heap.toNat + totalSize vs ≤ p.length)
    (hp : p.length < 2 ^ 32) :
    ∃ p' next, encodeAll p vs st heap = some (p', next) ∧
      next.toNat = heap.toNat + totalSize vs ∧
      ∀ k (v : Val), vs[k]? = some v → v.get p' (st + BitVec.ofNat 32 (8 * k)) = some v := by
  obtain ⟨p', next, he, hn, _, _, hk⟩ := encodeAll_spec vs p st heap hlay hfit hp
  refine ⟨p', next, he, hn, ?_⟩
  intro k v h
  obtain ⟨a, ha⟩ := hk k v h
  exact v.get_eq p' _ a ha

/-- non-vacuity: a string and a boolean array -/
example : encodeAll (List.replicate 21 0) [.str [0x61, 0x62], .bools [true, false, true]] 0 16 =
    some ([16, 0, 0, 0, 2, 0, 0, 0, 18, 0, 0, 0, 3, 0, 0, 0, 0x61, 0x62, 1, 0, 1], 21) := by decide

/-- **C04**, full statement without the size hypothesis: whenever encoding does not panic, decoding
gives the value back. -/
def DynRoundTrip : Prop :=
  ∀ (p p' s : Bytes) (st heap next : U32), st.toNat + 8 ≤ heap.toNat →
    setByteArray p s st heap = some (p', next) → getByteArray p' st = some s

/-- **C178** violated: when the heap is too short for the contents, the encoder silently truncates
them, and the decoder answers with the missing bytes replaced by zeros. -/
theorem C178_short_heap_violated : ¬ DynRoundTrip := by
  intro h
  have := h (List.replicate 9 0) [8, 0, 0, 0, 2, 0, 0, 0, 7] [7, 9] 0 8 10 (by decide) (by decide)
  exact absurd this (by decide)

/-- **C04**: on every buffer, also one from the network, whose descriptor points into it, the copying decoders return exactly as many
elements as announced: those the buffer has, and zeros (`false`) for the missing ones. -/
theorem C04_short_buffer (p : Bytes) (st add ln : U32) (h1 : getUInt32 p st = some add) (h2 : getUInt32 p (st + 4) = some ln)
    (h3 : add.toNat ≤ p.length) :
    (∃ s, getByteArray p st = some s ∧ s.length = ln.toNat ∧
      ∀ i, i < ln.toNat → s[i]? = some (p[add.toNat + i]?.getD 0#8)) ∧
    (∃ s, getBoolArray p st = some s ∧ s.length = ln.toNat ∧
      ∀ i, i < ln.toNat → s[i]? = some (p[add.toNat + i]?.getD 0#8 != 0#8)) := by
  constructor
  · refine ⟨goCopy (List.replicate ln.toNat 0#8) (p.drop add.toNat), ?_, ?_, ?_⟩
    · simp only [getByteArray, h1, h2, sliceFrom, if_pos h3, Option.bind_eq_bind, Option.bind_some]; rfl
    · simp only [goCopy, List.length_append, List.length_take, List.length_drop, List.length_replicate]; omega
    · intro i hi
      by_cases hc : add.toNat + i < p.length
      · rw [goCopy, List.getElem?_append_left (by simp; omega), List.getElem?_take_of_lt (by simpa using hi), List.getElem?_drop,
          List.getElem?_eq_getElem hc]
        rfl
      · rw [goCopy, List.getElem?_append_right (by simp; omega), List.getElem?_drop, List.getElem?_replicate,
          List.getElem?_eq_none (show p.length ≤ add.toNat + i by omega)]
        rw [if_pos (by simp only [List.length_take, List.length_drop, List.length_replicate]; omega)]
        rfl
  · refine ⟨goCopy (List.replicate ln.toNat false) ((p.drop add.toNat).map fun b => b != 0), ?_, ?_, ?_⟩
    · simp only [getBoolArray, h1, h2, sliceFrom, if_pos h3, Option.bind_eq_bind, Option.bind_some]
    · simp only [goCopy, List.length_append, List.length_take, List.length_drop, List.length_map, List.length_replicate]; omega
    · intro i hi
      by_cases hc : add.toNat + i < p.length
      · rw [goCopy, List.getElem?_append_left (by simp; omega), List.getElem?_take_of_lt (by simpa using hi), List.getElem?_map,
          List.getElem?_drop, List.getElem?_eq_getElem hc]
        rfl
      · rw [goCopy, List.getElem?_append_right (by simp; omega), List.getElem?_drop, List.getElem?_replicate,
          List.getElem?_eq_none (show p.length ≤ add.toNat + i by omega)]
        rw [if_pos (by simp only [List.length_take, List.length_drop, List.length_map, List.length_replicate]; omega)]
        rfl

/-- non-vacuity: three booleans announced, two there -/
example : getBoolArray [8, 0, 0, 0, 3, 0, 0, 0, 0, 7] 0 = some [false, true, false] := by decide

theorem ofMemN_get {n} (sz : Nat) : ∀ (k : Nat) (b : Bytes) (i : Nat), i < k →
    (ofMemN sz k b : List (BitVec n))[i]? = some (BitVec.ofNat n (leVal ((b.drop (i * sz)).take sz)))
  | 0, _, _, h => absurd h (by omega)
  | k + 1, b, 0, _ => by simp [ofMemN]
  | k + 1, b, i + 1, h => by
    rw [ofMemN, List.getElem?_cons_succ, ofMemN_get sz k _ i (by omega), List.drop_drop, Nat.succ_mul, Nat.add_comm]

theorem ofMemN_length {n} (sz : Nat) : ∀ (k : Nat) (b : Bytes), (ofMemN sz k b : List (BitVec n)).length = k
  | 0, _ => rfl
  | k + 1, b => by simp [ofMemN, ofMemN_length sz k]

/-- **C04**: the same for arrays of words: exactly as many as announced, those that are whole in the buffer by their bytes, zeros for the others. -/
theorem C04_short_words {n} (sz : Nat) (hsz : 0 < sz) (p : Bytes) (st add ln : U32) (h1 : getUInt32 p st = some add)
    (h2 : getUInt32 p (st + 4) = some ln) (h3 : add.toNat ≤ p.length) :
    ∃ s : List (BitVec n), getDyn sz p st = some s ∧ s.length = ln.toNat ∧ ∀ i, i < ln.toNat →
      s[i]? = some (if add.toNat + (i + 1) * sz ≤ p.length then BitVec.ofNat n (leVal (region p (add.toNat + i * sz) sz)) else 0) := by
  refine ⟨goCopy (List.replicate ln.toNat 0) (ofMem sz (p.drop add.toNat)), ?_, ?_, ?_⟩
  · simp only [getDyn, h1, h2, sliceFrom, if_pos h3, Option.bind_eq_bind, Option.bind_some]
  · simp only [goCopy, List.length_append, List.length_take, List.length_drop, List.length_replicate]; omega
  · intro i hi
    have hk : ((ofMem sz (p.drop add.toNat) : List (BitVec n))).length = (p.length - add.toNat) / sz := by
      rw [ofMem, ofMemN_length, List.length_drop]
    by_cases hc : add.toNat + (i + 1) * sz ≤ p.length
    · have hik : i < (p.length - add.toNat) / sz := by
        rw [Nat.lt_div_iff_mul_lt hsz]
        rw [Nat.succ_mul] at hc
        omega
      rw [if_pos hc, goCopy, List.getElem?_append_left (by simp only [List.length_take, hk, List.length_replicate]; omega),
        List.getElem?_take_of_lt (by simpa using hi), ofMem, ofMemN_get sz _ _ i (by rw [List.length_drop]; exact hik), List.drop_drop]
      rfl
    · have hik : ¬ i < (p.length - add.toNat) / sz := by
        rw [Nat.lt_div_iff_mul_lt hsz]
        rw [Nat.succ_mul] at hc
        omega
      rw [if_neg hc, goCopy, List.getElem?_append_right (by simp only [List.length_take, hk, List.length_replicate]; omega), List.getElem?_drop,
        List.getElem?_replicate]
      rw [if_pos (by simp only [List.length_take, hk, List.length_replicate]; omega)]

/-- non-vacuity: two words announced, one and a half there -/
example : getDyn 2 [8, 0, 0, 0, 2, 0, 0, 0, 5, 1, 7] 0 = some [(0x0105 : U16), 0] := by decide

/-- **C04**: whenever the zero-copy decoder of byte strings succeeds on a buffer (any buffer, also
one from the network), the copying decoder returns the same bytes. -/
theorem C04_unsafe_agrees (p s : Bytes) (st : U32) (h : unsafeGetByteArray p st = some s) :
    getByteArray p st = some s := by
  simp only [unsafeGetByteArray, Option.bind_eq_bind] at h
  cases ha : getUInt32 p st with
  | none => rw [ha] at h; cases h
  | some a =>
    cases hl : getUInt32 p (st + 4) with
    | none => rw [ha, hl] at h; cases h
    | some l =>
      rw [ha, hl] at h
      simp only [Option.bind_some, slice] at h
      split at h
      · rename_i hr
        cases h
        have hal : (a + l).toNat = a.toNat + l.toNat := by
          have := a.isLt
          have := l.isLt
          have := hr.1
          simp only [BitVec.toNat_add] at this ⊢
          omega
        rw [hal] at hr ⊢
        simp only [getByteArray, ha, hl, Option.bind_eq_bind, Option.bind_some, sliceFrom]
        rw [if_pos (by omega)]
        simp only [Option.bind_some, goCopy, List.length_replicate, List.length_drop]
        rw [List.drop_eq_nil_of_le (as := List.replicate _ _) (by simp; omega), List.append_nil, List.drop_take]
        simp
      · cases h

example : unsafeGetByteArray [8, 0, 0, 0, 2, 0, 0, 0, 7, 9] 0 = some [7, 9] := by decide

/-- **C04**: on a buffer holding an encoded word array, the zero-copy decoder returns it too. -/
theorem C04_unsafe_words {n} (sz : Nat) (hsz : 0 < sz) (hn : n = 8 * sz) (p : Bytes)
    (s : List (BitVec n)) (st heap : U32)
    (g : getUInt32 p st = some heap ∧ getUInt32 p (st + 4) = some (BitVec.ofNat 32 s.length))
    (hfit : heap.toNat + s.length * sz ≤ p.length) (hp : p.length < 2 ^ 32)
    (hi : region p heap.toNat (s.length * sz) = memOf sz s) :
    unsafeGetDyn sz p st = some s ∧ getDyn sz p st = some s := by
  have hml := memOf_length sz s
  have hs : s.length ≤ s.length * sz := Nat.le_mul_of_pos_right _ hsz
  constructor
  · have hm : (BitVec.ofNat 32 s.length * BitVec.ofNat 32 sz).toNat = s.length * sz := by
      rw [BitVec.toNat_mul, BitVec.toNat_ofNat, BitVec.toNat_ofNat, ← Nat.mul_mod,
        Nat.mod_eq_of_lt (by omega)]
    have ha : (heap + BitVec.ofNat 32 s.length * BitVec.ofNat 32 sz).toNat = heap.toNat + s.length * sz := by
      rw [BitVec.toNat_add, hm, Nat.mod_eq_of_lt (by omega)]
    simp only [unsafeGetDyn, g.1, g.2, Option.bind_eq_bind, Option.bind_some, ha, slice]
    rw [if_pos (by omega)]
    simp only [Option.bind_some]
    have hr : List.drop heap.toNat (List.take (heap.toNat + s.length * sz) p) = memOf sz s := by
      rw [← hi, region, List.drop_take]; simp
    rw [hr, ofMem, memOf_length, Nat.mul_div_cancel _ hsz]
    have := ofMemN_memOf sz hn s [] 0
    simp [ofMemN] at this
    rw [this]
  · exact getDyn_eq sz hsz hn p s st heap (by omega) g (by omega) (by rw [hml]; exact hi)

example : unsafeGetDyn 2 [8, 0, 0, 0, 2, 0, 0, 0, 2, 1, 4, 3] 0 = some [(0x0102 : U16), 0x0304] := by
  decide

/-! ## C05 arrays of strings -/

/-- Content bytes of all strings. -/
def contentSize (ss : List Bytes) : Nat := (ss.map List.length).sum

theorem loop_step (p s : Bytes) (r : List Bytes) (a n : U32) :
    setStringsLoop p (s :: r) a n =
      ((Val.bytes s).set p a n).bind fun x => setStringsLoop x.1 r (a + 8) x.2 := by
  have a4 : len32 s * 1 = len32 s := BitVec.mul_one _
  simp only [setStringsLoop, Val.set, setByteArray, setDyn, Option.bind_eq_bind, Option.bind_assoc,
    Option.bind_some, a4]

theorem stored_slice (p s : Bytes) (st h : U32) (hs : Stored p (.bytes s) st h) :
    getUInt32 p st = some h ∧ getUInt32 p (st + 4) = some (len32 s) ∧
      slice p h.toNat (h + len32 s).toNat = some s := by
  obtain ⟨h1, h2, h3, h4, h5⟩ := hs
  simp only [Val.size, Val.count, Val.esize, Nat.mul_one, Val.img] at h2 h5
  have hn' : (len32 s).toNat = s.length := by
    simp only [len32, BitVec.toNat_ofNat]; apply Nat.mod_eq_of_lt; omega
  have g := getDesc p st h (len32 s) h1 (by omega) (by rw [hn']; exact h4)
  refine ⟨g.1, g.2, ?_⟩
  have ha : (h + len32 s).toNat = h.toNat + s.length := by
    rw [BitVec.toNat_add, hn', Nat.mod_eq_of_lt (by omega)]
  rw [ha, slice, if_pos (by omega), List.drop_take]
  simp only [Nat.add_sub_cancel_left]
  exact congrArg some h5

theorem stringsLoop_spec (ss : List Bytes) : ∀ (p : Bytes) (a n : U32),
    a.toNat + 8 * ss.length ≤ n.toNat → n.toNat + contentSize ss ≤ p.length → p.length < 2 ^ 32 →
    ∃ p' next, setStringsLoop p ss a n = some (p', next) ∧
      next.toNat = n.toNat + contentSize ss ∧ p'.length = p.length ∧
      (∀ i m, (i + m ≤ a.toNat ∨ a.toNat + 8 * ss.length ≤ i) →
        (i + m ≤ n.toNat ∨ n.toNat + contentSize ss ≤ i) → region p' i m = region p i m) ∧
      ∀ q : Bytes, q.length = p'.length →
        region q a.toNat (8 * ss.length) = region p' a.toNat (8 * ss.length) →
        region q n.toNat (contentSize ss) = region p' n.toNat (contentSize ss) →
        getStringsLoop q ss.length a = some ss := by
  induction ss with
  | nil =>
    intro p a n _ _ _
    exact ⟨p, n, rfl, by simp [contentSize], rfl, fun _ _ _ _ => rfl, fun _ _ _ _ => rfl⟩
  | cons s r ih =>
    intro p a n h1 h2 h3
    have ht : contentSize (s :: r) = s.length + contentSize r := by simp [contentSize]
    have hv : (Val.bytes s).size = s.length := by simp [Val.size, Val.count, Val.esize]
    simp only [List.length_cons] at h1 ⊢
    rw [ht] at h2 ⊢
    have e8 : (a + 8).toNat = a.toNat + 8 := idx a 8 (by omega)
    obtain ⟨p1, n1, he, hn, hl, hs, hf⟩ :=
      (Val.bytes s).set_stored p a n (by omega) (by omega) h3 (by omega)
    rw [hv] at hn hf
    obtain ⟨p2, n2, he2, hn2, hl2, hf2, hg2⟩ := ih p1 (a + 8) n1 (by omega) (by omega) (by omega)
    refine ⟨p2, n2, ?_, by omega, by omega, ?_, ?_⟩
    · rw [loop_step, he]; exact he2
    · intro i m hi1 hi2
      rw [hf2 i m (by omega) (by omega), hf i m (by omega) (by omega)]
    · intro q hq hr1 hr2
      rw [show 8 * (r.length + 1) = 8 + 8 * r.length by omega, region_append, region_append] at hr1
      rw [region_append, region_append] at hr2
      have k1 := List.append_inj hr1 (by rw [region_length _ _ _ (by omega), region_length _ _ _ (by omega)])
      have k2 := List.append_inj hr2 (by rw [region_length _ _ _ (by omega), region_length _ _ _ (by omega)])
      have hst : Stored q (.bytes s) a n := by
        obtain ⟨s1, s2, s3, s4, s5⟩ := hs
        rw [hv] at s2 s5
        refine ⟨by omega, by rw [hv]; omega, by omega, ?_, ?_⟩
        · rw [k1.1, hf2 _ _ (by omega) (by omega)]; exact s4
        · rw [hv, k2.1, hf2 _ _ (by omega) (by omega)]; exact s5
      obtain ⟨g1, g2, g3⟩ := stored_slice q s a n hst
      simp only [getStringsLoop, g1, g2, g3, Option.bind_eq_bind, Option.bind_some]
      rw [hg2 q (by omega) (by rw [e8]; exact k1.2) (by rw [hn]; exact k2.2)]
      rfl

/-- **C05**: an array of strings decodes to exactly the strings encoded, whatever they contain and
however many there are, provided the buffer has room for the table and the contents and these do not
overlap the descriptor, before or behind which they may stand; bytes outside
descriptor, table and contents are unchanged, and the returned heap address is the end. -/
theorem C05_string_array_roundtrip (ss : List Bytes) (p : Bytes) (st heap : U32)
    (hst : st.toNat + 8 ≤ heap.toNat ∨
      heap.toNat + 8 * ss.length + contentSize ss ≤ st.toNat ∧ st.toNat + 8 ≤ p.length)
    (hfit : heap.toNat + 8 * ss.length + contentSize ss ≤ p.length) (hp : p.length < 2 ^ 32) :
    ∃ p' next, setStringArray p ss st heap = some (p', next) ∧
      getStringArray p' st = some ss ∧
      next.toNat = heap.toNat + 8 * ss.length + contentSize ss ∧ p'.length = p.length ∧
      ∀ j, (j < st.toNat ∨ st.toNat + 8 ≤ j) → (j < heap.toNat ∨ next.toNat ≤ j) →
        p'[j]? = p[j]? := by
  have hn' : (len32 ss).toNat = ss.length := by
    simp only [len32, BitVec.toNat_ofNat]; apply Nat.mod_eq_of_lt; omega
  have hnx : (heap + len32 ss * 8).toNat = heap.toNat + 8 * ss.length := by
    have : (len32 ss * 8).toNat = 8 * ss.length := by
      rw [BitVec.toNat_mul, hn', show (8 : U32).toNat = 8 from rfl, Nat.mod_eq_of_lt (by omega)]; omega
    rw [BitVec.toNat_add, this, Nat.mod_eq_of_lt (by omega)]
  have hd := setDesc_eq p st heap (len32 ss) (by omega) (by omega)
  have hdl : (leDigits 4 heap.toNat ++ leDigits 4 (len32 ss).toNat).length = 8 := by
    simp [leDigits_length]
  have hl1 := overwrite_length p st.toNat _ (show st.toNat + (leDigits 4 heap.toNat ++ leDigits 4 (len32 ss).toNat).length ≤ p.length by omega)
  have hreg := region_overwrite_same p st.toNat _ (show st.toNat + (leDigits 4 heap.toNat ++ leDigits 4 (len32 ss).toNat).length ≤ p.length by omega)
  have hdisj := fun i m => region_overwrite_disjoint p st.toNat _ i m (show st.toNat + (leDigits 4 heap.toNat ++ leDigits 4 (len32 ss).toNat).length ≤ p.length by omega)
  rw [hdl] at hreg hdisj
  generalize overwrite p st.toNat (leDigits 4 heap.toNat ++ leDigits 4 (len32 ss).toNat) = p1 at *
  obtain ⟨p2, n2, he2, hn2, hl2, hf2, hg2⟩ :=
    stringsLoop_spec ss p1 heap (heap + len32 ss * 8) (by omega) (by omega) (by omega)
  have g := getDesc p2 st heap (len32 ss) (by omega) (by omega)
    (by rw [hf2 _ _ (by omega) (by omega)]; exact hreg)
  refine ⟨p2, n2, ?_, ?_, by omega, by omega, ?_⟩
  · simp only [setStringArray, Option.bind_eq_bind]
    rw [← Option.bind_assoc, hd]; exact he2
  · simp only [getStringArray, g.1, g.2, Option.bind_eq_bind, Option.bind_some, hn']
    exact hg2 p2 rfl rfl rfl
  · intro j hj1 hj2
    apply region_one_get
    rw [hf2 j 1 (by omega) (by omega), hdisj j 1 (by omega)]

/-- non-vacuity: three strings, one empty, behind the descriptor and before it -/
example : (setStringArray (List.replicate 35 0) [[0x61], [], [0x62, 0x63]] 27 0).bind
    (fun x => getStringArray x.1 27) = some [[0x61], [], [0x62, 0x63]] := by decide

example : (setStringArray (List.replicate 35 0) [[0x61], [], [0x62, 0x63]] 0 8).bind
    (fun x => getStringArray x.1 0) = some [[0x61], [], [0x62, 0x63]] := by decide

end Memar.Syllab
