import Verif.Syllab.Gen

/-!
# Lemmas about the generator of `syllab`
-/

namespace Memar.Syllab.Gen
open Memar Memar.Binary Spec

/-- Element bytes of a slice type. -/
def SlE.width : SlE → Nat
  | .bool | .byte | .int8 => 1
  | .uint16 | .int16 => 2
  | .uint32 | .int32 => 4
  | .uint64 | .int64 => 8

/-- A field the generator handles: its path, its code, its stack bytes and the factor of its heap line. -/
structure Item where
  path : String
  ty : GTy
  n : Nat
  h : Option Nat

/-- The items whose code works. -/
inductive Item.Good : Item → Prop
  | sc (p : String) (k : Kind) : Good ⟨p, .sc k, k.size, none⟩
  | bool (p : String) : Good ⟨p, .bool, 1, none⟩
  | str (p : String) : Good ⟨p, .str, 8, some 1⟩
  | slice (p : String) (s : SlE) : Good ⟨p, .slice s, 8, some s.width⟩
  | arr (p : String) (w n : Nat) (hw : 0 < w) : Good ⟨p, .arr w n, n * w, none⟩

/-- The value fits the code. -/
inductive GTy.Has : GTy → FV → Prop
  | sc (k : Kind) (n : Nat) (h : n < 2 ^ (8 * k.size)) : Has (.sc k) (.num n)
  | bool (b : Bool) : Has .bool (.bool b)
  | str (s : Bytes) : Has .str (.dyn (.str s))
  | bools (s : List Bool) : Has (.slice .bool) (.dyn (.bools s))
  | bytes (t : SlE) (ht : t = .byte ∨ t = .int8) (s : Bytes) : Has (.slice t) (.dyn (.bytes s))
  | u16s (t : SlE) (ht : t = .uint16 ∨ t = .int16) (s : List U16) : Has (.slice t) (.dyn (.u16s s))
  | u32s (t : SlE) (ht : t = .uint32 ∨ t = .int32) (s : List U32) : Has (.slice t) (.dyn (.u32s s))
  | u64s (t : SlE) (ht : t = .uint64 ∨ t = .int64) (s : List U64) : Has (.slice t) (.dyn (.u64s s))
  | arr (w n : Nat) (img : Bytes) (h : img.length = n * w) : Has (.arr w n) (.arr img)

/-- Heap bytes of a value. -/
def FV.heapBytes : FV → Nat
  | .dyn v => v.size
  | _ => 0

def encLines : Nat → List Item → List ELine
  | _, [] => []
  | o, i :: r => .call ⟨i.path, i.ty, o, []⟩ :: encLines (o + i.n) r
def decLines (u : Bool) : Nat → List Item → List DLine
  | _, [] => []
  | o, i :: r => .call ⟨i.path, i.ty, o, []⟩ u :: decLines u (o + i.n) r
def heapLines : List Item → List HLine
  | [] => []
  | i :: r => (i.h.map fun m => HLine.len i.path m).toList ++ heapLines r

def stackOf (is : List Item) : Nat := (is.map Item.n).sum
def heapOf (e : Env) (is : List Item) : Nat := (is.map fun i => (e.val i.path).heapBytes).sum

theorem unsafeGet_eq (v : Val) (p : Bytes) (st heap : U32) (h : Stored p v st heap) : unsafeGet v p st = some v := by
  have hb : ∀ s : Bytes, Stored p (.bytes s) st heap → unsafeGetByteArray p st = some s := by
    intro s hs
    obtain ⟨g1, g2, g3⟩ := stored_slice p s st heap hs
    simp only [unsafeGetByteArray, g1, g2, Option.bind_eq_bind, Option.bind_some]
    exact g3
  have hc := v.count_le_size
  obtain ⟨h1, h2, h3, h4, h5⟩ := h
  have hn' : (BitVec.ofNat 32 v.count).toNat = v.count := by
    rw [BitVec.toNat_ofNat]; apply Nat.mod_eq_of_lt; omega
  have g := getDesc p st heap (BitVec.ofNat 32 v.count) h1 (by omega) (by rw [hn']; exact h4)
  cases v with
  | str s => rw [unsafeGet, hb s ⟨h1, h2, h3, h4, h5⟩]; rfl
  | bytes s => rw [unsafeGet, hb s ⟨h1, h2, h3, h4, h5⟩]; rfl
  | bools s =>
    have := hb (s.map fun b => if b then 1 else 0) ⟨h1, by simpa [Val.size, Val.count, Val.esize] using h2, h3,
      by simpa [Val.desc, Val.count] using h4, by simpa [Val.img, Val.size, Val.count, Val.esize] using h5⟩
    rw [unsafeGet, this, Option.map_some, List.map_map]
    have : ((fun x : Byte => x != 0) ∘ fun b : Bool => if b = true then (1 : Byte) else 0) = id := by
      funext b; cases b <;> rfl
    rw [this, List.map_id]
  | u16s s => rw [unsafeGet, (C04_unsafe_words 2 (by decide) rfl p s st heap g h2 h3 h5).1]; rfl
  | u32s s => rw [unsafeGet, (C04_unsafe_words 4 (by decide) rfl p s st heap g h2 h3 h5).1]; rfl
  | u64s s => rw [unsafeGet, (C04_unsafe_words 8 (by decide) rfl p s st heap g h2 h3 h5).1]; rfl
  | c128s s => rw [unsafeGet, (C04_unsafe_words 16 (by decide) rfl p s st heap g h2 h3 h5).1]; rfl

/-- Two buffers agree on a range. -/
theorem _root_.Memar.Syllab.Stored.of_regions {p q : Bytes} {v : Val} {st hp : U32} (h : Stored p v st hp) (hl : q.length = p.length)
    (h1 : region q st.toNat 8 = region p st.toNat 8) (h2 : region q hp.toNat v.size = region p hp.toNat v.size) : Stored q v st hp := by
  obtain ⟨s1, s2, s3, s4, s5⟩ := h
  exact ⟨by omega, by omega, by omega, h1.trans s4, h2.trans s5⟩

theorem offset_nil (e : Env) (o : Nat) : offset e o [] = o := by simp [offset]

/-- What one encoder call does, for a value with a descriptor. -/
theorem enc_dyn (v : Val) (p : Bytes) (o : Nat) (hsi : U32) (h1 : o + 8 ≤ hsi.toNat)
    (h2 : hsi.toNat + v.size ≤ p.length) (hp : p.length < 2 ^ 32) :
    ∃ p' next, v.set p (BitVec.ofNat 32 o) hsi = some (p', next) ∧ next.toNat = hsi.toNat + v.size ∧ p'.length = p.length ∧
      (∀ i n, (i + n ≤ o ∨ o + 8 ≤ i) → (i + n ≤ hsi.toNat ∨ hsi.toNat + v.size ≤ i) → region p' i n = region p i n) ∧
      ∀ q : Bytes, q.length = p'.length → region q o 8 = region p' o 8 → region q hsi.toNat v.size = region p' hsi.toNat v.size →
        v.get q (BitVec.ofNat 32 o) = some v ∧ unsafeGet v q (BitVec.ofNat 32 o) = some v := by
  have ho : (BitVec.ofNat 32 o).toNat = o := by rw [BitVec.toNat_ofNat]; apply Nat.mod_eq_of_lt; omega
  obtain ⟨p', next, he, hn, hl, hs, hf⟩ := v.set_stored p (BitVec.ofNat 32 o) hsi (by omega) h2 hp (by omega)
  rw [ho] at hf
  refine ⟨p', next, he, hn, hl, hf, ?_⟩
  intro q hq r1 r2
  have := hs.of_regions hq (by rw [ho]; exact r1) r2
  exact ⟨v.get_eq _ _ _ this, unsafeGet_eq _ _ _ _ this⟩

theorem getBool_zero_one (q : Bytes) (o : Nat) (ho : (BitVec.ofNat 32 o).toNat = o) (b : Bool) (h : region q o 1 = [if b then 1 else 0]) :
    getBool q (BitVec.ofNat 32 o) = some b := by
  have h0 : q[o]? = some (if b then 1 else 0) := by
    have := congrArg (fun r => r[0]?) h
    simpa [region_get] using this
  rw [getBool, ho, h0]
  cases b <;> rfl

/-- One encoder call of a good item, and its decoder call on any buffer that kept the bytes. -/
theorem item_spec (e : Env) (u : Bool) (i : Item) (hg : i.Good) (hv : i.ty.Has (e.val i.path)) (o : Nat) (p : Bytes) (hsi : U32)
    (h1 : o + i.n ≤ hsi.toNat) (h2 : hsi.toNat + (e.val i.path).heapBytes ≤ p.length) (hp : p.length < 2 ^ 32)
    (hz : region p o i.n = List.replicate i.n 0#8) :
    ∃ p' next, runEnc e ⟨i.path, i.ty, o, []⟩ p hsi = some (p', next) ∧ next.toNat = hsi.toNat + (e.val i.path).heapBytes ∧
      p'.length = p.length ∧
      (∀ j n, (j + n ≤ o ∨ o + i.n ≤ j) → (j + n ≤ hsi.toNat ∨ hsi.toNat + (e.val i.path).heapBytes ≤ j) → region p' j n = region p j n) ∧
      ∀ q : Bytes, q.length = p'.length → region q o i.n = region p' o i.n →
        region q hsi.toNat (e.val i.path).heapBytes = region p' hsi.toNat (e.val i.path).heapBytes →
        runDec e ⟨i.path, i.ty, o, []⟩ u q = some (e.val i.path) := by
  have ho : (BitVec.ofNat 32 o).toNat = o := by rw [BitVec.toNat_ofNat]; apply Nat.mod_eq_of_lt; omega
  obtain ⟨path, ty, n, hh⟩ := i
  simp only at *
  generalize hx : e.val path = x at *
  have hdyn : ∀ v, x = .dyn v → n = 8 → (∀ p hsi, runEnc e ⟨path, ty, o, []⟩ p hsi = v.set p (BitVec.ofNat 32 o) hsi) →
      (∀ q, v.get q (BitVec.ofNat 32 o) = some v → unsafeGet v q (BitVec.ofNat 32 o) = some v →
        runDec e ⟨path, ty, o, []⟩ u q = some (.dyn v)) →
      ∃ p' next, runEnc e ⟨path, ty, o, []⟩ p hsi = some (p', next) ∧ next.toNat = hsi.toNat + x.heapBytes ∧
        p'.length = p.length ∧
        (∀ j m, (j + m ≤ o ∨ o + n ≤ j) → (j + m ≤ hsi.toNat ∨ hsi.toNat + x.heapBytes ≤ j) → region p' j m = region p j m) ∧
        ∀ q : Bytes, q.length = p'.length → region q o n = region p' o n →
          region q hsi.toNat x.heapBytes = region p' hsi.toNat x.heapBytes →
          runDec e ⟨path, ty, o, []⟩ u q = some x := by
    intro v hxv hn he hd
    subst hxv
    subst hn
    obtain ⟨p', next, k1, k2, k3, k4, k5⟩ := enc_dyn v p o hsi h1 h2 hp
    refine ⟨p', next, (he _ _).trans k1, k2, k3, k4, ?_⟩
    intro q hq r1 r2
    obtain ⟨a, b⟩ := k5 q hq r1 r2
    exact hd q a b
  have hfix : ∀ (d : Bytes), d.length = n → x.heapBytes = 0 → (runEnc e ⟨path, ty, o, []⟩ p hsi = some (overwrite p o d, hsi)) →
      (∀ q : Bytes, q.length = p.length → region q o n = d → runDec e ⟨path, ty, o, []⟩ u q = some x) →
      ∃ p' next, runEnc e ⟨path, ty, o, []⟩ p hsi = some (p', next) ∧ next.toNat = hsi.toNat + x.heapBytes ∧
        p'.length = p.length ∧
        (∀ j m, (j + m ≤ o ∨ o + n ≤ j) → (j + m ≤ hsi.toNat ∨ hsi.toNat + x.heapBytes ≤ j) → region p' j m = region p j m) ∧
        ∀ q : Bytes, q.length = p'.length → region q o n = region p' o n →
          region q hsi.toNat x.heapBytes = region p' hsi.toNat x.heapBytes →
          runDec e ⟨path, ty, o, []⟩ u q = some x := by
    intro d hd hb he hr
    have hl := overwrite_length p o d (by omega)
    refine ⟨_, hsi, he, by omega, hl, ?_, ?_⟩
    · intro j m hj _
      exact region_overwrite_disjoint _ _ _ _ _ (by omega) (by omega)
    · intro q hq r1 _
      have hs := region_overwrite_same p o d (by omega)
      rw [hd] at hs
      exact hr q (by omega) (r1.trans hs)
  cases hg with
  | sc _ k =>
    cases hv with
    | sc _ m hm =>
      have hfit : k.Fits p (BitVec.ofNat 32 o) := ⟨by omega, by omega⟩
      apply hfix (leDigits k.size (BitVec.ofNat (8 * k.size) m).toNat) (leDigits_length _ _) rfl
      · simp only [runEnc, hx, offset_nil]
        rw [k.set_eq _ _ _ hfit, ho]; rfl
      · intro q hq hr
        simp only [runDec, offset_nil]
        rw [k.get_eq q _ ⟨by omega, by omega⟩, ho, hr, ofNat_leVal_digits k.size rfl]
        simp [Nat.mod_eq_of_lt hm]
  | bool =>
    cases hv with
    | bool b =>
      apply hfix [if b then 1 else 0] rfl rfl
      · simp only [runEnc, hx, offset_nil]
        cases b with
        | true => rw [setBool, if_pos rfl, ho, setAt_first p o 1 (by omega)]; rfl
        | false =>
          simp only [setBool, Bool.false_eq_true, if_false, Option.map_some]
          congr 2
          have : overwrite p o [0#8] = p := by
            apply List.ext_getElem?
            intro j
            rw [overwrite_get _ _ _ (by simp; omega)]
            split
            · rename_i hj
              simp only [List.length_cons, List.length_nil] at hj
              have hj' : j = o := by omega
              subst hj'
              have := congrArg (fun r => r[0]?) hz
              simp [region_get] at this
              simp [this]
            · rfl
          exact this.symm
      · intro q hq hr
        simp only [runDec, offset_nil]
        rw [getBool_zero_one q o ho b hr]; rfl
  | str =>
    cases hv with
    | str s =>
      apply hdyn (.str s) rfl rfl
      · intro p hsi
        simp only [runEnc, hx, offset_nil]
      · intro q a b
        simp only [runDec, offset_nil]
        have a' : (Val.str []).get q (BitVec.ofNat 32 o) = some (.str s) := a
        have b' : unsafeGet (.str []) q (BitVec.ofNat 32 o) = some (.str s) := b
        rw [a', b']; cases u <;> rfl
  | slice _ t =>
    have fin : ∀ v, x = .dyn v → (∀ q, v.get q (BitVec.ofNat 32 o) = t.empty.get q (BitVec.ofNat 32 o)) →
        (∀ q, unsafeGet v q (BitVec.ofNat 32 o) = unsafeGet t.empty q (BitVec.ofNat 32 o)) → _ := fun v hv' g1 g2 =>
      hdyn v hv' rfl (fun p hsi => by simp only [runEnc, hx, hv', offset_nil]) (fun q a b => by
        simp only [runDec, offset_nil, ← g1, ← g2, a, b]; cases u <;> rfl)
    cases hv with
    | bools s => exact fin _ rfl (fun _ => rfl) (fun _ => rfl)
    | bytes _ ht s => rcases ht with rfl | rfl <;> exact fin _ rfl (fun _ => rfl) (fun _ => rfl)
    | u16s _ ht s => rcases ht with rfl | rfl <;> exact fin _ rfl (fun _ => rfl) (fun _ => rfl)
    | u32s _ ht s => rcases ht with rfl | rfl <;> exact fin _ rfl (fun _ => rfl) (fun _ => rfl)
    | u64s _ ht s => rcases ht with rfl | rfl <;> exact fin _ rfl (fun _ => rfl) (fun _ => rfl)
  | arr _ w k hw =>
    cases hv with
    | arr _ _ img hi =>
      apply hfix img hi rfl
      · simp only [runEnc, hx, offset_nil, setArray]
        rw [onSliceFrom_copy _ _ _ (by omega), ho]; rfl
      · intro q hq hr
        simp only [runDec, offset_nil, ho, sliceFrom]
        rw [if_pos (by omega), Option.map_some]
        have hdr : q.drop o = img ++ q.drop (o + img.length) := drop_of_region q o img (by rw [hi]; exact hr)
        have hle : img.length ≤ (q.drop o).length / w * w := by
          rw [hi]
          apply Nat.mul_le_mul_right
          rw [Nat.le_div_iff_mul_le hw, List.length_drop]
          omega
        congr 2
        obtain ⟨m, hm⟩ : ∃ m, (q.drop o).length / w * w = img.length + m := ⟨_, (Nat.add_sub_cancel' hle).symm⟩
        rw [hm, hdr, List.take_length_add_append, goCopy_prefix _ _ _ (by simp [hi])]

theorem items_spec (e : Env) (u : Bool) (stack : Nat) (is : List Item) : ∀ (o : Nat) (p : Bytes) (hsi : U32) (er : List ELine) (dr : List DLine),
    (∀ i ∈ is, i.Good ∧ i.ty.Has (e.val i.path)) → o + stackOf is ≤ hsi.toNat → hsi.toNat + heapOf e is ≤ p.length →
    p.length < 2 ^ 32 → region p o (stackOf is) = List.replicate (stackOf is) 0#8 →
    ∃ p' next, encode e stack (encLines o is ++ er) p hsi = encode e stack er p' next ∧ next.toNat = hsi.toNat + heapOf e is ∧
      p'.length = p.length ∧
      (∀ j n, (j + n ≤ o ∨ o + stackOf is ≤ j) → (j + n ≤ hsi.toNat ∨ hsi.toNat + heapOf e is ≤ j) → region p' j n = region p j n) ∧
      ∀ q : Bytes, q.length = p'.length → region q o (stackOf is) = region p' o (stackOf is) →
        region q hsi.toNat (heapOf e is) = region p' hsi.toNat (heapOf e is) → ∀ out,
        decode e stack q (decLines u o is ++ dr) out = decode e stack q dr (out ++ is.map fun i => (i.path, e.val i.path)) := by
  induction is with
  | nil =>
    intro o p hsi er dr _ _ _ _ _
    exact ⟨p, hsi, rfl, by simp [heapOf], rfl, fun _ _ _ _ => rfl, fun _ _ _ _ _ => by simp [decLines]⟩
  | cons i r ih =>
    intro o p hsi er dr hi h1 h2 hp hz
    have es : stackOf (i :: r) = i.n + stackOf r := by simp [stackOf]
    have eh : heapOf e (i :: r) = (e.val i.path).heapBytes + heapOf e r := by simp [heapOf]
    rw [es] at h1 hz ⊢
    rw [eh] at h2 ⊢
    rw [region_append, ← List.replicate_append_replicate] at hz
    have hz' := List.append_inj hz (by rw [region_length _ _ _ (by omega)]; simp)
    obtain ⟨hg, hv⟩ := hi i (by simp)
    obtain ⟨p1, n1, a1, a2, a3, a4, a5⟩ := item_spec e u i hg hv o p hsi (by omega) (by omega) hp hz'.1
    obtain ⟨p2, n2, b1, b2, b3, b4, b5⟩ := ih (o + i.n) p1 n1 er dr (fun j hj => hi j (by simp [hj])) (by omega) (by omega) (by omega)
      (by rw [a4 _ _ (by omega) (by omega)]; exact hz'.2)
    refine ⟨p2, n2, ?_, by omega, by omega, ?_, ?_⟩
    · rw [encLines, List.cons_append, encode, a1, Option.bind_some]
      exact b1
    · intro j n hj1 hj2
      rw [b4 j n (by omega) (by omega), a4 j n (by omega) (by omega)]
    · intro q hq r1 r2 out
      rw [region_append, region_append] at r1 r2
      have k1 := List.append_inj r1 (by rw [region_length _ _ _ (by omega), region_length _ _ _ (by omega)])
      have k2 := List.append_inj r2 (by rw [region_length _ _ _ (by omega), region_length _ _ _ (by omega)])
      rw [decLines, List.cons_append, decode]
      rw [a5 q (by omega) (by rw [k1.1, b4 _ _ (by omega) (by omega)]) (by rw [k2.1, b4 _ _ (by omega) (by omega)]), Option.bind_some]
      rw [b5 q hq k1.2 (by rw [a2]; exact k2.2)]
      simp

theorem heapLen_items (e : Env) (is : List Item) (hi : ∀ i ∈ is, i.Good ∧ i.ty.Has (e.val i.path)) (r : List HLine) :
    heapLen e (heapLines is ++ r) = heapOf e is + heapLen e r := by
  induction is with
  | nil => simp [heapLines, heapOf]
  | cons i is ih =>
    have eh : heapOf e (i :: is) = (e.val i.path).heapBytes + heapOf e is := by simp [heapOf]
    obtain ⟨hg, hv⟩ := hi i (by simp)
    have := ih fun j hj => hi j (by simp [hj])
    rw [heapLines, List.append_assoc, eh]
    obtain ⟨path, ty, n, hh⟩ := i
    simp only at *
    generalize hx : e.val path = x at *
    cases hg with
    | sc _ k => cases hv; simp [this, FV.heapBytes]
    | bool => cases hv; simp [this, FV.heapBytes]
    | arr _ w k hw => cases hv; simp [this, FV.heapBytes]
    | str =>
      cases hv with
      | str s => simp [heapLen, hx, this, FV.heapBytes, Val.size, Val.esize, Nat.add_assoc]
    | slice _ t =>
      cases hv with
      | bools s => simp [heapLen, hx, this, FV.heapBytes, Val.size, Val.esize, SlE.width, Nat.add_assoc]
      | bytes _ ht s => rcases ht with rfl | rfl <;> simp [heapLen, hx, this, FV.heapBytes, Val.size, Val.esize, SlE.width, Nat.add_assoc]
      | u16s _ ht s => rcases ht with rfl | rfl <;> simp [heapLen, hx, this, FV.heapBytes, Val.size, Val.esize, SlE.width, Nat.add_assoc]
      | u32s _ ht s => rcases ht with rfl | rfl <;> simp [heapLen, hx, this, FV.heapBytes, Val.size, Val.esize, SlE.width, Nat.add_assoc]
      | u64s _ ht s => rcases ht with rfl | rfl <;> simp [heapLen, hx, this, FV.heapBytes, Val.size, Val.esize, SlE.width, Nat.add_assoc]

end Memar.Syllab.Gen
