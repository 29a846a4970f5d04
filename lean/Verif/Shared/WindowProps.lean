import Verif.Base64
import Verif.Shared.Windows
import Verif.Shared.TextProps

/-!
# C287: what is decoded comes from the message alone
-/

namespace Memar.Shared
open Memar Memar.Convert

/-! ## The bounds -/

/-- A getter with the last step left open. -/
def Getter.by {β : Type} (b : Bytes) (k : Nat → Nat → Option β) : Getter → Option β
  | .tcpOptions => (Net.Tcp.dataOffset b).bind fun (d : U8) => k 20 d.toNat
  | .callPayload => (Net.Frames.length16le b).bind fun (n : U16) => k 26 n.toNat
  | .paddingPayload => (Net.Frames.length16be b).bind fun (n : U16) => k 2 n.toNat
  | .dataPayload => (Net.Frames.length16be b).bind fun (n : U16) => k 18 n.toNat
  | .routingOptional => (Net.Extension.length b).bind fun (l : Byte) => k 8 l.toNat
  | .syllabBytes i => (Syllab.getUInt32 b i).bind fun (add : U32) =>
      (Syllab.getUInt32 b (i + 4)).bind fun (ln : U32) => k add.toNat (add + ln).toNat
  | .syllabWords sz i => (Syllab.getUInt32 b i).bind fun (add : U32) =>
      (Syllab.getUInt32 b (i + 4)).bind fun (ln : U32) => k add.toNat (add + ln * BitVec.ofNat 32 sz).toNat

theorem run_by (h : Heap) (p : SliceHeader) (g : Getter) : g.run h p = g.by (bytesOf h p) (reslice p) := by cases g <;> rfl

theorem own_by (b : Bytes) (g : Getter) : g.own b = g.by b (slice b) := by cases g <;> rfl

theorem nibble (c : Byte) : ((c >>> 4) * 4#8).toNat = 4 * (c.toNat / 16) := by
  have := c.isLt
  simp only [BitVec.toNat_mul, BitVec.toNat_ushiftRight, Nat.shiftRight_eq_div_pow, BitVec.toNat_ofNat]
  omega

theorem get32_none (b : Bytes) (i : U32) (hb : b.length + 8 ≤ 4294967296) (h : b.length < i.toNat + 4) : Syllab.getUInt32 b i = none := by
  by_cases hi : i.toNat < b.length
  · exact Syllab.getUInt32_none b i (by omega) h
  · have : b[i.toNat]? = none := List.getElem?_eq_none (by omega)
    simp only [Syllab.getUInt32, this, Option.bind_eq_bind, Option.bind_none]

theorem get32_some (b : Bytes) (i : U32) (hb : b.length + 8 ≤ 4294967296) (h : i.toNat + 4 ≤ b.length) :
    ∃ v : U32, Syllab.getUInt32 b i = some v ∧ v.toNat = Binary.Spec.leVal ((b.drop i.toNat).take 4) := by
  refine ⟨_, Syllab.getUInt32_eq b i h (by omega), ?_⟩
  have := Binary.leVal_lt (region b i.toNat 4)
  rw [region_length b i.toNat 4 h] at this
  rw [BitVec.toNat_ofNat, Nat.mod_eq_of_lt (by simpa using this)]
  rfl

theorem two_le (b : Bytes) (h : 2 ≤ b.length) : ∃ v : U16, Net.Frames.length16le b = some v ∧ v.toNat = Binary.Spec.leVal (b.take 2) := by
  have e := Syllab.getUInt16_eq b 0#32 (by simpa using h) (by simp)
  refine ⟨_, e, ?_⟩
  have := Binary.leVal_lt (region b (0#32).toNat 2)
  rw [region_length b (0#32).toNat 2 (by simpa using h)] at this
  rw [BitVec.toNat_ofNat, Nat.mod_eq_of_lt (by simpa using this)]
  rfl

theorem two_be (b : Bytes) (h : 2 ≤ b.length) : ∃ v : U16, Net.Frames.length16be b = some v ∧ v.toNat = Binary.Spec.beVal (b.take 2) := by
  have e : Net.Frames.length16be b = some (BitVec.ofNat 16 (Binary.Spec.beVal (b.take 2))) := by
    simp only [Net.Frames.length16be, sliceFrom, Nat.zero_le, if_true, List.drop_zero, Option.bind_some, Binary.C01_be16_load, if_pos h]
  refine ⟨_, e, ?_⟩
  have := Binary.leVal_lt (b.take 2).reverse
  rw [List.length_reverse, List.length_take, Nat.min_eq_left h] at this
  rw [BitVec.toNat_ofNat, Nat.mod_eq_of_lt (by simpa [Binary.Spec.beVal] using this)]

theorem by_bounds {β : Type} (b : Bytes) (hb : b.length + 8 ≤ 4294967296) (k : Nat → Nat → Option β) (g : Getter) :
    g.by b k = (Spec.bounds b g).bind fun ij => k ij.1 ij.2 := by
  have le_none : ¬ 2 ≤ b.length → Net.Frames.length16le b = none := fun h => Syllab.getUInt16_none b 0#32 (by simp) (by simp; omega)
  have be_none : ¬ 2 ≤ b.length → Net.Frames.length16be b = none := fun h => by
    simp only [Net.Frames.length16be, sliceFrom, Nat.zero_le, if_true, List.drop_zero, Option.bind_some, Binary.C01_be16_load, if_neg h]
  have syl : ∀ (i : U32) (f : U32 → U32 → U32) (fn : Nat → Nat → Nat), (∀ x y : U32, (f x y).toNat = fn x.toNat y.toNat) →
      ((Syllab.getUInt32 b i).bind fun (add : U32) => (Syllab.getUInt32 b (i + 4)).bind fun (ln : U32) => k add.toNat (f add ln).toNat) =
      if i.toNat + 8 ≤ b.length then k (Binary.Spec.leVal ((b.drop i.toNat).take 4))
        (fn (Binary.Spec.leVal ((b.drop i.toNat).take 4)) (Binary.Spec.leVal ((b.drop (i.toNat + 4)).take 4))) else none := by
    intro i f fn hf
    by_cases h1 : i.toNat + 4 ≤ b.length
    · obtain ⟨v, e1, e2⟩ := get32_some b i hb h1
      have hi4 : (i + 4).toNat = i.toNat + 4 := by
        rw [BitVec.toNat_add]; simp; omega
      rw [e1, Option.bind_some]
      by_cases h2 : i.toNat + 8 ≤ b.length
      · obtain ⟨w, e3, e4⟩ := get32_some b (i + 4) hb (by omega)
        rw [e3, Option.bind_some, hf, if_pos h2, e2, e4, hi4]
      · rw [get32_none b (i + 4) hb (by omega), if_neg h2]; rfl
    · rw [get32_none b i hb (by omega), if_neg (by omega)]; rfl
  cases g with
  | tcpOptions =>
    simp only [Getter.by, Spec.bounds, Net.Tcp.dataOffset]
    by_cases h : 13 ≤ b.length
    · rw [if_pos h]
      have e : b[12]? = some (b.getD 12 0) := by rw [List.getD, List.getElem?_eq_getElem (by omega)]; rfl
      rw [e]
      simp only [Option.map_some, Option.bind_some, nibble]
    · rw [if_neg h, List.getElem?_eq_none (by omega)]; rfl
  | callPayload =>
    simp only [Getter.by, Spec.bounds]
    by_cases h : 2 ≤ b.length
    · obtain ⟨v, e1, e2⟩ := two_le b h
      rw [if_pos h, e1]; simp only [Option.bind_some, e2]
    · rw [if_neg h, le_none h]; rfl
  | paddingPayload =>
    simp only [Getter.by, Spec.bounds]
    by_cases h : 2 ≤ b.length
    · obtain ⟨v, e1, e2⟩ := two_be b h
      rw [if_pos h, e1]; simp only [Option.bind_some, e2]
    · rw [if_neg h, be_none h]; rfl
  | dataPayload =>
    simp only [Getter.by, Spec.bounds]
    by_cases h : 2 ≤ b.length
    · obtain ⟨v, e1, e2⟩ := two_be b h
      rw [if_pos h, e1]; simp only [Option.bind_some, e2]
    · rw [if_neg h, be_none h]; rfl
  | routingOptional =>
    simp only [Getter.by, Spec.bounds, Net.Extension.length]
    by_cases h : 2 ≤ b.length
    · rw [if_pos h]
      have e : b[1]? = some (b.getD 1 0) := by rw [List.getD, List.getElem?_eq_getElem (by omega)]; rfl
      rw [e]; rfl
    · rw [if_neg h, List.getElem?_eq_none (by omega)]; rfl
  | syllabBytes i =>
    simp only [Getter.by, Spec.bounds]
    rw [syl i (fun x y => x + y) (fun x y => (x + y) % 4294967296) (fun x y => by rw [BitVec.toNat_add])]
    split <;> rfl
  | syllabWords sz i =>
    simp only [Getter.by, Spec.bounds]
    rw [syl i (fun x y => x + y * BitVec.ofNat 32 sz) (fun x y => (x + y * sz) % 4294967296)
      (fun x y => by rw [BitVec.toNat_add, BitVec.toNat_mul, BitVec.toNat_ofNat]; simp [Nat.add_mod, Nat.mul_mod])]
    split <;> rfl

theorem run_bounds (h : Heap) (p : SliceHeader) (hp : p.len + 8 ≤ 4294967296) (g : Getter) :
    g.run h p = (Spec.bounds (bytesOf h p) g).bind fun ij => reslice p ij.1 ij.2 := by
  rw [run_by, by_bounds _ (by rw [bytesOf_length]; exact hp)]

theorem own_bounds (b : Bytes) (hb : b.length + 8 ≤ 4294967296) (g : Getter) :
    g.own b = (Spec.bounds b g).bind fun ij => slice b ij.1 ij.2 := by
  rw [own_by, by_bounds _ hb]

theorem reslice_bytes (h : Heap) (p : SliceHeader) (i j : Nat) (hij : i ≤ j) (hj : j ≤ p.len) :
    bytesOf h ⟨p.data + i, j - i, p.cap - i⟩ = ((bytesOf h p).take j).drop i := by
  unfold bytesOf
  rw [read_take _ _ _ _ hj, read_drop _ _ _ _ hij]

theorem reslice_behind (h : Heap) (p : SliceHeader) (i j : Nat) (hij : i ≤ j) (hj : p.len ≤ j) (q : Bytes) (hq : q.length = j - p.len) :
    bytesOf (put h (p.data + p.len) q) ⟨p.data + i, j - i, p.cap - i⟩ = (bytesOf h p ++ q).drop i := by
  have e : bytesOf h p ++ q = read (put h (p.data + p.len) q) p.data j := by
    rw [show j = p.len + q.length by omega, read_add, read_put_same, read_put_apart _ _ _ _ _ (by omega)]; rfl
  rw [e, read_drop _ _ _ _ hij]; rfl

theorem message_kept (h : Heap) (p : SliceHeader) (q : Bytes) : bytesOf (put h (p.data + p.len) q) p = bytesOf h p :=
  read_put_apart _ _ _ _ _ (by omega)

/-! ## The getters -/

/-- **C287** the part that holds: when the part a getter is asked for lies inside the message, the getter answers exactly these bytes of the
message, as the byte models say, whatever stands in the memory around it. Missing: fields that reach behind the message, see
`C287_behind_violated`. -/
theorem C287_within_partial (h : Heap) (p : SliceHeader) (hp : p.len + 8 ≤ 4294967296) (hc : p.len ≤ p.cap) (g : Getter) (i j : Nat)
    (hb : Spec.bounds (bytesOf h p) g = some (i, j)) (hij : i ≤ j) (hj : j ≤ p.len) :
    ∃ r, g.run h p = some r ∧ bytesOf h r = ((bytesOf h p).take j).drop i ∧ g.own (bytesOf h p) = some (bytesOf h r) := by
  refine ⟨⟨p.data + i, j - i, p.cap - i⟩, ?_, reslice_bytes h p i j hij hj, ?_⟩
  · rw [run_bounds h p hp, hb]
    simp only [Option.bind_some, reslice, if_pos (show i ≤ j ∧ j ≤ p.cap by omega)]
  · rw [own_bounds _ (by rw [bytesOf_length]; exact hp), hb, reslice_bytes h p i j hij hj]
    simp only [Option.bind_some, slice, bytesOf_length, if_pos (show i ≤ j ∧ j ≤ p.len by omega)]

/-- A padding frame of two bytes of padding, and two bytes behind it. -/
def demoFrame : Heap := holding [0, 4, 7, 7, 9, 9]

example : Spec.bounds (bytesOf demoFrame ⟨0, 4, 6⟩) .paddingPayload = some (2, 4) ∧
    ((Getter.paddingPayload.run demoFrame ⟨0, 4, 6⟩).map (bytesOf demoFrame)) = some [7, 7] := by decide +kernel

/-- C287 violated: when the fields reach behind the message and the buffer goes on, the getter does not panic, as the byte models have it for a
buffer that ends with the message, but answers what stands behind the message: for every `q` in that place the answer ends with `q`. -/
theorem C287_behind_violated (h : Heap) (p : SliceHeader) (hp : p.len + 8 ≤ 4294967296) (g : Getter) (i j : Nat)
    (hb : Spec.bounds (bytesOf h p) g = some (i, j)) (hij : i ≤ j) (hj : p.len < j) (hc : j ≤ p.cap) :
    g.own (bytesOf h p) = none ∧
    ∃ r, ∀ q : Bytes, q.length = j - p.len → bytesOf (put h (p.data + p.len) q) p = bytesOf h p ∧
      g.run (put h (p.data + p.len) q) p = some r ∧ bytesOf (put h (p.data + p.len) q) r = (bytesOf h p ++ q).drop i := by
  constructor
  · rw [own_bounds _ (by rw [bytesOf_length]; exact hp), hb]
    simp only [Option.bind_some, slice, bytesOf_length, if_neg (show ¬ (i ≤ j ∧ j ≤ p.len) by omega)]
  · refine ⟨⟨p.data + i, j - i, p.cap - i⟩, fun q hq => ⟨message_kept h p q, ?_, reslice_behind h p i j hij (by omega) q hq⟩⟩
    rw [run_bounds _ p hp, message_kept, hb]
    simp only [Option.bind_some, reslice, if_pos (show i ≤ j ∧ j ≤ p.cap from ⟨hij, hc⟩)]

example : Spec.bounds (bytesOf demoFrame ⟨0, 3, 6⟩) .paddingPayload = some (2, 4) ∧
    (Getter.paddingPayload.run demoFrame ⟨0, 3, 6⟩).map (bytesOf demoFrame) = some [7, 7] ∧
    (Getter.paddingPayload.run (put demoFrame 3 [5]) ⟨0, 3, 6⟩).map (bytesOf (put demoFrame 3 [5])) = some [7, 5] := by decide +kernel

/-- A call frame whose length field says 28 in a message of 27 bytes. -/
def demoCall : Heap := holding ([28, 0] ++ List.replicate 24 1 ++ [42, 43])

example : Spec.bounds (bytesOf demoCall ⟨0, 27, 28⟩) .callPayload = some (26, 28) ∧
    (Getter.callPayload.run demoCall ⟨0, 27, 28⟩).map (bytesOf demoCall) = some [42, 43] := by decide +kernel

example : Spec.bounds (bytesOf (holding [4, 0, 0, 0, 5, 0, 0, 0, 1, 2]) ⟨0, 8, 10⟩) (.syllabBytes 0#32) = some (4, 9) ∧
    (Getter.run (holding [4, 0, 0, 0, 5, 0, 0, 0, 1, 2]) ⟨0, 8, 10⟩ (.syllabBytes 0#32)).map (bytesOf (holding [4, 0, 0, 0, 5, 0, 0, 0, 1, 2])) =
      some [5, 0, 0, 0, 1] := by decide +kernel

/-- **C287** the part that holds: exactly when the answer of a getter is settled by the message and the size of its buffer: unless the fields end behind the
message, inside the buffer, and the part is not empty. Missing: those messages. -/
theorem C287_settled_exact_partial (h : Heap) (p : SliceHeader) (hp : p.len + 8 ≤ 4294967296) (hc : p.len ≤ p.cap) (g : Getter) :
    (∀ h', bytesOf h' p = bytesOf h p → (g.run h' p).map (bytesOf h') = (g.run h p).map (bytesOf h)) ↔
      ¬ ∃ i j, Spec.bounds (bytesOf h p) g = some (i, j) ∧ i < j ∧ p.len < j ∧ j ≤ p.cap := by
  constructor
  · rintro hall ⟨i, j, hb, hij, hj, hjc⟩
    obtain ⟨_, r, hr⟩ := C287_behind_violated h p hp g i j hb (by omega) hj hjc
    have hq : ∀ c : Byte, (List.replicate (j - p.len) c).length = j - p.len := fun c => by simp
    have e : ∀ c : Byte, (bytesOf h p ++ List.replicate (j - p.len) c).drop i =
        ((g.run h p).map (bytesOf h)).getD [] := by
      intro c
      obtain ⟨k1, k2, k3⟩ := hr _ (hq c)
      have := hall _ k1
      rw [k2, Option.map_some, k3] at this
      rw [← this]; rfl
    have e2 := (e 0#8).trans (e 1#8).symm
    have := congrArg (fun l => l[j - 1 - i]?) e2
    simp only [List.getElem?_drop, show i + (j - 1 - i) = j - 1 by omega] at this
    rw [List.getElem?_append_right (by rw [bytesOf_length]; omega), List.getElem?_append_right (by rw [bytesOf_length]; omega), bytesOf_length,
      List.getElem?_replicate, List.getElem?_replicate, if_pos (by omega), if_pos (by omega)] at this
    cases this
  · intro hn h' he
    rw [run_bounds h' p hp, run_bounds h p hp, he]
    cases hb : Spec.bounds (bytesOf h p) g with
    | none => rfl
    | some ij =>
      obtain ⟨i, j⟩ := ij
      simp only [Option.bind_some, reslice]
      by_cases hij : i ≤ j ∧ j ≤ p.cap
      · rw [if_pos hij]
        simp only [Option.map_some, Option.some.injEq]
        by_cases hj : j ≤ p.len
        · rw [reslice_bytes h' p i j hij.1 hj, reslice_bytes h p i j hij.1 hj, he]
        · have : i = j := by
            by_cases h2 : i < j
            · exact absurd ⟨i, j, hb, h2, by omega, hij.2⟩ hn
            · omega
          subst this
          simp [bytesOf, read]
      · rw [if_neg hij]; rfl

example : ¬ ∃ i j, Spec.bounds (bytesOf demoFrame ⟨0, 4, 6⟩) .paddingPayload = some (i, j) ∧ i < j ∧ 4 < j ∧ j ≤ 6 := by
  have : Spec.bounds (bytesOf demoFrame ⟨0, 4, 6⟩) .paddingPayload = some (2, 4) := by decide +kernel
  rintro ⟨i, j, e, h1, h2, h3⟩
  rw [this] at e
  cases e
  omega

/-- C287 violated: what a getter answers has the rest of the buffer as its room, so appending to it goes over the message behind the
part, for instance over the next frame. -/
theorem C287_append_violated (extra : Nat → Nat → Nat) (h : Heap) (p : SliceHeader) (hp : p.len + 8 ≤ 4294967296) (hc : p.len ≤ p.cap) (g : Getter)
    (i j : Nat) (hb : Spec.bounds (bytesOf h p) g = some (i, j)) (hij : i ≤ j) (q : Bytes) (hq : j + q.length ≤ p.len) :
    ∃ r, g.run h p = some r ∧
      bytesOf (append extra h (some r) q).1 p = (bytesOf h p).take j ++ q ++ (bytesOf h p).drop (j + q.length) := by
  refine ⟨⟨p.data + i, j - i, p.cap - i⟩, ?_, ?_⟩
  · rw [run_bounds h p hp, hb]
    simp only [Option.bind_some, reslice, if_pos (show i ≤ j ∧ j ≤ p.cap by omega)]
  · have : j - i + q.length ≤ p.cap - i := by omega
    simp only [append, if_pos this]
    rw [show p.data + i + (j - i) = p.data + j by omega]
    unfold bytesOf
    rw [read_put_inside h p.data p.len j q hq, read_take h p.data p.len j (by omega), read_drop h p.data p.len _ hq,
      show p.data + (j + q.length) = p.data + j + q.length by omega, show p.len - (j + q.length) = p.len - j - q.length by omega]

example : (Getter.paddingPayload.run demoFrame ⟨0, 6, 6⟩).map (fun r => bytesOf (append (fun _ _ => 0) demoFrame (some r) [1]).1 ⟨0, 6, 6⟩) =
    some [0, 4, 7, 7, 1, 9] := by decide +kernel

/-- **C287** the part that holds: the options of a TCP segment that passed `CheckSegment` come from the segment alone. Missing: segments that were not
checked, and the other getters, which have no such check. -/
theorem C287_checked_segment_partial (h : Heap) (p : SliceHeader) (hp : p.len + 8 ≤ 4294967296) (hc : p.len ≤ p.cap)
    (hk : Net.Tcp.checkSegment (bytesOf h p) = some .ok) :
    (tcpOptionsAt h p).map (bytesOf h) = Net.Tcp.options (bytesOf h p) := by
  have e1 := run_bounds h p hp .tcpOptions
  have e2 := own_bounds (bytesOf h p) (by rw [bytesOf_length]; exact hp) .tcpOptions
  simp only [Getter.run] at e1
  simp only [Getter.own] at e2
  have hl : 20 ≤ p.len ∧ 4 * (((bytesOf h p).getD 12 0).toNat / 16) ≤ p.len := by
    unfold Net.Tcp.checkSegment Net.Tcp.minSize at hk
    rw [bytesOf_length] at hk
    split at hk
    · cases hk
    · next hn =>
      have e : (bytesOf h p)[12]? = some ((bytesOf h p).getD 12 0) := by
        rw [List.getD, List.getElem?_eq_getElem (by rw [bytesOf_length]; omega)]; rfl
      rw [Net.Tcp.dataOffset, e] at hk
      simp only [Option.map_some, nibble, Option.some.injEq] at hk
      split at hk
      · cases hk
      · omega
  have hb : Spec.bounds (bytesOf h p) .tcpOptions = some (20, 4 * (((bytesOf h p).getD 12 0).toNat / 16)) := by
    simp only [Spec.bounds, bytesOf_length, if_pos (show 13 ≤ p.len by omega)]
  rw [e1, e2, hb]
  simp only [Option.bind_some, reslice, slice, bytesOf_length]
  by_cases h20 : 20 ≤ 4 * (((bytesOf h p).getD 12 0).toNat / 16)
  · rw [if_pos ⟨h20, by omega⟩, if_pos ⟨h20, hl.2⟩]
    simp only [Option.map_some, reslice_bytes h p _ _ h20 hl.2]
  · rw [if_neg (by omega), if_neg (by omega)]; rfl

/-- A TCP segment of 24 bytes with four bytes of options, and a byte behind it. -/
def demoSegment : Heap := holding (List.replicate 12 0 ++ [0x60] ++ List.replicate 7 0 ++ [2, 4, 5, 6, 9])

example : Net.Tcp.checkSegment (bytesOf demoSegment ⟨0, 24, 25⟩) = some .ok ∧
    (tcpOptionsAt demoSegment ⟨0, 24, 25⟩).map (bytesOf demoSegment) = some [2, 4, 5, 6] ∧
    Net.Tcp.checkSegment (bytesOf demoSegment ⟨0, 22, 25⟩) = some .wrongLength ∧
    (tcpOptionsAt demoSegment ⟨0, 22, 25⟩).map (bytesOf demoSegment) = some [2, 4, 5, 6] := by decide +kernel

/-- The words of `Verif.Syllab.Model` are made of the bytes the getter of words gives. -/
theorem words_own {n : Nat} (sz : Nat) (b : Bytes) (i : U32) :
    (Syllab.unsafeGetDyn sz b i : Option (List (BitVec n))) = (Getter.own b (.syllabWords sz i)).map (Syllab.ofMem sz) := by
  simp only [Syllab.unsafeGetDyn, Getter.own, Option.bind_eq_bind]
  cases Syllab.getUInt32 b i with
  | none => rfl
  | some a =>
    simp only [Option.bind_some]
    cases Syllab.getUInt32 b (i + 4) with
    | none => rfl
    | some l =>
      simp only [Option.bind_some]
      cases slice b a.toNat (a + l * BitVec.ofNat 32 sz).toNat <;> rfl

/-! ## Arrays of strings -/

private theorem loop_own (h : Heap) (p : SliceHeader) (hc : p.len ≤ p.cap) : ∀ (k : Nat) (add : U32) (r : List Bytes),
    Syllab.getStringsLoop (bytesOf h p) k add = some r → (stringsLoopAt h p k add).map (fun l => l.map (bytesOf h)) = some r
  | 0, _, r, e => by cases e; rfl
  | k + 1, add, r, e => by
    unfold Syllab.getStringsLoop at e
    unfold stringsLoopAt
    cases e1 : Syllab.getUInt32 (bytesOf h p) add with
    | none => rw [e1] at e; cases e
    | some a =>
    cases e2 : Syllab.getUInt32 (bytesOf h p) (add + 4) with
    | none => rw [e1, e2] at e; cases e
    | some l =>
    rw [e1, e2] at e
    simp only [Option.bind_eq_bind, Option.bind_some, slice, bytesOf_length] at e
    by_cases hs : a.toNat ≤ (a + l).toNat ∧ (a + l).toNat ≤ p.len
    · rw [if_pos hs] at e
      simp only [Option.bind_some] at e
      cases e3 : Syllab.getStringsLoop (bytesOf h p) k (add + 8) with
      | none => rw [e3] at e; cases e
      | some r' =>
        rw [e3] at e
        simp only [Option.bind_some, Option.some.injEq] at e
        have ih := loop_own h p hc k (add + 8) r' e3
        simp only [Option.bind_some, reslice, if_pos (show a.toNat ≤ (a + l).toNat ∧ (a + l).toNat ≤ p.cap by omega)]
        cases e4 : stringsLoopAt h p k (add + 8) with
        | none => rw [e4] at ih; cases ih
        | some l' =>
          rw [e4] at ih
          simp only [Option.map_some, Option.some.injEq] at ih
          simp only [Option.map_some, List.map_cons, ih, Option.some.injEq, ← e, reslice_bytes h p _ _ hs.1 hs.2]
    · rw [if_neg hs] at e; cases e

/-- **C287** the part that holds: when every string of an array lies inside the message, `GetStringArray` answers them. Missing: strings that reach behind the
message, see `C287_strings_violated`. -/
theorem C287_strings_partial (h : Heap) (p : SliceHeader) (hc : p.len ≤ p.cap) (i : U32) (r : List Bytes)
    (e : Syllab.getStringArray (bytesOf h p) i = some r) : (stringArrayAt h p i).map (fun l => l.map (bytesOf h)) = some r := by
  unfold Syllab.getStringArray at e
  unfold stringArrayAt
  cases e1 : Syllab.getUInt32 (bytesOf h p) i with
  | none => rw [e1] at e; cases e
  | some a =>
  cases e2 : Syllab.getUInt32 (bytesOf h p) (i + 4) with
  | none => rw [e1, e2] at e; cases e
  | some l =>
  rw [e1, e2] at e
  exact loop_own h p hc _ _ _ e

/-- A message with an array of the one text "ab", and two bytes behind it. -/
def demoStrings : Heap := holding [8, 0, 0, 0, 1, 0, 0, 0, 16, 0, 0, 0, 2, 0, 0, 0, 97, 98, 99, 100]

example : Syllab.getStringArray (bytesOf demoStrings ⟨0, 18, 20⟩) 0#32 = some [[97, 98]] := by decide +kernel

/-- C287 violated: a string of an array whose fields reach behind the message is given with what stands there, by the copying `GetStringArray` as
well: for every `q` in that place. -/
theorem C287_strings_violated (h : Heap) (p : SliceHeader) (i add a l : U32)
    (e1 : Syllab.getUInt32 (bytesOf h p) i = some add) (e2 : Syllab.getUInt32 (bytesOf h p) (i + 4) = some 1#32)
    (e3 : Syllab.getUInt32 (bytesOf h p) add = some a) (e4 : Syllab.getUInt32 (bytesOf h p) (add + 4) = some l)
    (ho : a.toNat + l.toNat < 4294967296) (hj : p.len < a.toNat + l.toNat) (hc : a.toNat + l.toNat ≤ p.cap) :
    Syllab.getStringArray (bytesOf h p) i = none ∧
    ∀ q : Bytes, q.length = a.toNat + l.toNat - p.len →
      bytesOf (put h (p.data + p.len) q) p = bytesOf h p ∧
      (stringArrayAt (put h (p.data + p.len) q) p i).map (fun r => r.map (bytesOf (put h (p.data + p.len) q))) =
        some [(bytesOf h p ++ q).drop a.toNat] := by
  have hs : (a + l).toNat = a.toNat + l.toNat := by rw [BitVec.toNat_add]; omega
  constructor
  · unfold Syllab.getStringArray
    rw [e1, e2]
    simp only [Option.bind_eq_bind, Option.bind_some, show (1#32).toNat = 0 + 1 from rfl, Syllab.getStringsLoop, e3, e4, slice, hs,
      bytesOf_length, if_neg (show ¬ (a.toNat ≤ a.toNat + l.toNat ∧ a.toNat + l.toNat ≤ p.len) by omega), Option.bind_none]
  · intro q hq
    refine ⟨message_kept h p q, ?_⟩
    unfold stringArrayAt
    rw [message_kept, e1, e2]
    simp only [Option.bind_some, show (1#32).toNat = 0 + 1 from rfl, stringsLoopAt, message_kept, e3, e4, reslice, hs,
      if_pos (show a.toNat ≤ a.toNat + l.toNat ∧ a.toNat + l.toNat ≤ p.cap by omega), Option.map_some, List.map_cons, List.map_nil,
      reslice_behind h p a.toNat (a.toNat + l.toNat) (by omega) (by omega) q hq]

example : Syllab.getStringArray (bytesOf demoStrings ⟨0, 17, 20⟩) 0#32 = none ∧
    (stringArrayAt demoStrings ⟨0, 17, 20⟩ 0#32).map (fun r => r.map (bytesOf demoStrings)) = some [[97, 98]] := by decide +kernel

/-! ## The null of a JSON document -/

private theorem tail_eq {c : Byte} {r : Bytes} {b : Bytes} {i : Nat} (e : b.drop i = c :: r) : b.drop (i + 1) = r := by
  rw [← List.drop_drop, e]; rfl

private theorem null_own (h : Heap) (b : SliceHeader) (hc : b.len ≤ b.cap) : ∀ (r : Bytes) (i : Nat) (null v : Bool), (bytesOf h b).drop i = r →
    Json.checkNull null r = some v → checkNullAt h b i null r = some v
  | [], _, _, _, _, e => e
  | c :: r, i, null, v, hd, e => by
    unfold Json.checkNull at e
    unfold checkNullAt
    have ht := tail_eq hd
    have hl : b.len - i = r.length + 1 := by
      have := congrArg List.length hd
      simpa [bytesOf_length] using this
    by_cases h1 : c = ch 'n'
    · rw [if_pos h1] at e ⊢
      split at e
      · cases e
      · next h3 =>
        have hs : i ≤ i + 4 ∧ i + 4 ≤ b.cap := by omega
        simp only [reslice, if_pos hs, Option.bind_some]
        rw [reslice_bytes h b i (i + 4) (by omega) (by omega)]
        have : (List.drop i (List.take (i + 4) (bytesOf h b)) == bs "null") = (r.take 3 == bs "ull") := by
          rw [List.drop_take, hd, show i + 4 - i = 3 + 1 by omega, List.take_succ_cons, h1]
          show (ch 'n' :: r.take 3 == ch 'n' :: bs "ull") = _
          simp
        rw [this]
        exact null_own h b hc r (i + 1) _ v ht e
    · rw [if_neg h1] at e ⊢
      by_cases h2 : c = ch '"'
      · rw [if_pos h2] at e ⊢; exact e
      · rw [if_neg h2] at e ⊢
        by_cases h3 : c = ch ','
        · rw [if_pos h3] at e ⊢; exact e
        · rw [if_neg h3] at e ⊢
          exact null_own h b hc r (i + 1) _ v ht e

/-- **C287** the part that holds: when `CheckNullValue` looks only at whole words of the document, its answer comes from the document. Missing: documents
that end inside a word that begins with `n`, see `C287_null_violated`. -/
theorem C287_null_partial (h : Heap) (b : SliceHeader) (hc : b.len ≤ b.cap) (v : Bool) (e : Json.checkNull false (bytesOf h b) = some v) :
    nullValueAt h b = some v :=
  null_own h b hc _ 0 false v rfl e

example : Json.checkNull false (bytesOf (holding (bs " null,\"a\":1}")) ⟨0, 8, 13⟩) = some true := by decide +kernel

private theorem null_pass (h : Heap) (b : SliceHeader) (null : Bool) : ∀ (u r : Bytes) (i : Nat),
    (∀ c ∈ u, c ≠ ch 'n' ∧ c ≠ ch '"' ∧ c ≠ ch ',') → checkNullAt h b i null (u ++ r) = checkNullAt h b (i + u.length) null r ∧
      Json.checkNull null (u ++ r) = Json.checkNull null r
  | [], _, _, _ => ⟨rfl, rfl⟩
  | c :: u, r, i, hu => by
    obtain ⟨a1, a2, a3⟩ := hu c (List.mem_cons_self ..)
    obtain ⟨k1, k2⟩ := null_pass h b null u r (i + 1) (fun x hx => hu x (List.mem_cons_of_mem _ hx))
    rw [List.cons_append, checkNullAt, Json.checkNull, if_neg a1, if_neg a2, if_neg a3, if_neg a1, if_neg a2, if_neg a3, k1, k2,
      List.length_cons, show i + 1 + u.length = i + (u.length + 1) by omega]
    exact ⟨rfl, rfl⟩

/-- C287 violated: a document that ends inside the word `null`, in a buffer that goes on, is said to hold null exactly when what stands behind the
document completes the word. -/
theorem C287_null_violated (h : Heap) (b : SliceHeader) (u : Bytes) (hu : ∀ c ∈ u, c ≠ ch 'n' ∧ c ≠ ch '"' ∧ c ≠ ch ',') (k : Nat) (hk : 1 ≤ k ∧ k ≤ 3)
    (hb : bytesOf h b = u ++ (bs "null").take k) (hc : u.length + 4 ≤ b.cap) :
    Json.checkNull false (bytesOf h b) = none ∧
    ∀ q : Bytes, q.length = 4 - k → bytesOf (put h (b.data + b.len) q) b = bytesOf h b ∧
      nullValueAt (put h (b.data + b.len) q) b = some (decide (q = (bs "null").drop k)) := by
  have hlen : b.len = u.length + k := by
    have := congrArg List.length hb
    rw [bytesOf_length, List.length_append, List.length_take] at this
    have : (bs "null").length = 4 := by decide
    omega
  have hk' : k = 1 ∨ k = 2 ∨ k = 3 := by omega
  constructor
  · rw [hb, (null_pass h b false u _ 0 hu).2]
    rcases hk' with rfl | rfl | rfl <;> decide
  · intro q hq
    refine ⟨message_kept h b q, ?_⟩
    unfold nullValueAt
    rw [message_kept, hb, (null_pass _ b false u _ 0 hu).1, Nat.zero_add]
    have hr := reslice_behind h b u.length (u.length + 4) (by omega) (by omega) q (by omega)
    rw [hb, List.append_assoc, List.drop_left] at hr
    have hc' : u.length ≤ u.length + 4 ∧ u.length + 4 ≤ b.cap := by omega
    have tails : ∀ (v : Bool) (t : Bytes), (∀ c ∈ t, c ≠ ch 'n' ∧ c ≠ ch '"' ∧ c ≠ ch ',') →
        checkNullAt (put h (b.data + b.len) q) b (u.length + 1) v t = some v := by
      intro v t ht
      have := (null_pass (put h (b.data + b.len) q) b v t [] (u.length + 1) ht).1
      rw [List.append_nil] at this
      rw [this]; rfl
    have head : (bs "null").take k = ch 'n' :: (bs "ull").take (k - 1) := by rcases hk' with rfl | rfl | rfl <;> decide
    have rest : ∀ c ∈ (bs "ull").take (k - 1), c ≠ ch 'n' ∧ c ≠ ch '"' ∧ c ≠ ch ',' := by rcases hk' with rfl | rfl | rfl <;> decide
    rw [head] at hr
    rw [head, checkNullAt, if_pos rfl]
    simp only [reslice, if_pos hc', Option.bind_some]
    rw [hr, tails _ _ rest, Bool.false_or, ← head]
    have hw : bs "null" = (bs "null").take k ++ (bs "null").drop k := (List.take_append_drop k _).symm
    congr 1
    rw [Bool.eq_iff_iff, beq_iff_eq, decide_eq_true_iff]
    conv => lhs; rhs; rw [hw]
    exact ⟨fun e => List.append_cancel_left e, fun e => by rw [e]⟩

example : (nullValueAt (holding (bs " null")) ⟨0, 3, 5⟩, nullValueAt (holding (bs " nuts")) ⟨0, 3, 5⟩) = (some true, some false) := by decide +kernel

/-- **C287**: an item of an array of 32 byte values is answered exactly when 43 bytes of the document are there and can be read; it is read from
these, and the document goes on behind them. -/
theorem C287_items (dec : Bytes → Option Bytes) (h : Heap) (b : SliceHeader) (hc : b.len ≤ b.cap) (a : Bytes) (r : SliceHeader) :
    (item32At dec h b = some (some (a, r)) ↔ 43 ≤ b.len ∧ dec ((bytesOf h b).take 43) = some a ∧ r = sFrom b 43) ∧
    (43 ≤ b.len → bytesOf h (sFrom b 43) = (bytesOf h b).drop 43) := by
  refine ⟨?_, fun hl => bytesOf_sFrom h b 43 hl⟩
  unfold item32At
  by_cases hk : 43 ≤ b.cap
  · have hr : reslice b 0 43 = some ⟨b.data, 43, b.cap⟩ := by simp [reslice, hk]
    rw [hr, Option.bind_some]
    by_cases hl : 43 ≤ b.len
    · have e : bytesOf h ⟨b.data, 43, b.cap⟩ = (bytesOf h b).take 43 := (read_take h b.data b.len 43 hl).symm
      rw [e]
      cases hd : dec ((bytesOf h b).take 43) with
      | none => simp
      | some v =>
        simp only [if_pos hl, Option.some.injEq, Prod.mk.injEq]
        exact ⟨fun k => ⟨hl, k.1, k.2.symm⟩, fun k => ⟨k.2.1, k.2.2.symm⟩⟩
    · constructor
      · intro k
        split at k
        · cases k
        · rw [if_neg hl] at k; cases k
      · exact fun k => absurd k.1 hl
  · rw [show reslice b 0 43 = none by simp [reslice, hk], Option.bind_none]
    constructor
    · intro k; cases k
    · intro k; omega

/-- **C287**: a document that ends inside such an item fails, in a buffer that goes on as well; what stands behind the document decides only whether it is
refused with an error or by a panic. -/
theorem C287_items_short (dec : Bytes → Option Bytes) (h : Heap) (b : SliceHeader) (hl : b.len < 43) (hc : 43 ≤ b.cap) (q : Bytes)
    (hq : q.length = 43 - b.len) :
    item32At dec (put h (b.data + b.len) q) b = if (dec (bytesOf h b ++ q)).isSome then none else some none := by
  have hr : reslice b 0 43 = some ⟨b.data + 0, 43 - 0, b.cap - 0⟩ := by simp [reslice, hc]
  unfold item32At
  rw [hr, Option.bind_some, reslice_behind h b 0 43 (by omega) (by omega) q hq, List.drop_zero]
  cases dec (bytesOf h b ++ q) with
  | none => rfl
  | some a => simp only [if_neg (show ¬ 43 ≤ b.len by omega), Option.isSome_some, if_true]

private def doc43 : Bytes := List.replicate 43 (ch 'A') ++ bs "\"]"

example : (item32At Base64.decode (holding doc43) ⟨0, 45, 45⟩, item32At Base64.decode (holding doc43) ⟨0, 40, 45⟩,
    item32At Base64.decode (holding (doc43.take 41 ++ bs "??")) ⟨0, 40, 45⟩) =
    (some (some (List.replicate 32 0, ⟨43, 2, 2⟩)), none, some none) := by decide +kernel

end Memar.Shared
