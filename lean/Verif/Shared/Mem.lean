import Verif.Base
import Verif.Convert.Model

/-!
# Memory shared between slices

A slice is a header (address, length, capacity) into one memory of bytes, so two slices may show the same bytes and a write through one
shows through the other. `next` is the first address that was never given out. Go's allocator is modelled as handing out addresses upwards
and memory is never given back: the garbage collector reuses only memory that nobody refers to any more, so no program can tell.
-/

namespace Memar.Shared
open Memar.Convert

/-- A memory: a byte at every address, and the first address that is not in use. -/
structure Heap where
  cells : Nat → Byte
  next : Nat

/-- The `n` bytes from address `a` on. -/
def read (h : Heap) (a n : Nat) : Bytes := (List.range n).map fun (k : Nat) => h.cells (a + k)

/-- What a slice shows. -/
def bytesOf (h : Heap) (s : SliceHeader) : Bytes := read h s.data s.len

/-- What a slice shows, where nil shows nothing. -/
def shown (h : Heap) : Option SliceHeader → Bytes
  | none => []
  | some s => bytesOf h s

/-- What a string shows. -/
def textOf (h : Heap) (s : StringHeader) : Bytes := read h s.data s.len

/-- Go `copy` of `p` to address `a`; also a single store `s[i] = b`. -/
def put (h : Heap) (a : Nat) (p : Bytes) : Heap :=
  { h with cells := fun x => if a ≤ x ∧ x < a + p.length then p.getD (x - a) 0#8 else h.cells x }

/-- A new array holding `p` and `n` zero bytes behind it, as a slice of the length of `p`: Go `make`, the array a moving `append`
takes, and Go `string(s)`, where `n` is 0. -/
def fresh (h : Heap) (p : Bytes) (n : Nat) : Heap × SliceHeader :=
  ({ put h h.next (p ++ List.replicate n 0#8) with next := h.next + (p.length + n) }, ⟨h.next, p.length, p.length + n⟩)

/-- Go `append(s, p...)` where `p` shows the bytes it showed when the call began: in place when the capacity allows, else
in a new array. How much Go over-allocates is a parameter. -/
def append (extra : Nat → Nat → Nat) (h : Heap) (s : Option SliceHeader) (p : Bytes) : Heap × Option SliceHeader :=
  match s with
  | none => if p = [] then (h, none) else ((fresh h p (extra 0 p.length)).1, some (fresh h p (extra 0 p.length)).2)
  | some s =>
    if s.len + p.length ≤ s.cap then (put h (s.data + s.len) p, some ⟨s.data, s.len + p.length, s.cap⟩)
    else ((fresh h (bytesOf h s ++ p) (extra s.cap (s.len + p.length))).1,
      some (fresh h (bytesOf h s ++ p) (extra s.cap (s.len + p.length))).2)

/-- Every slice a program holds satisfies this. -/
def Held (h : Heap) (s : SliceHeader) : Prop := s.len ≤ s.cap ∧ s.data + s.cap ≤ h.next

/-- A memory of ten bytes `0 … 9` in use, for the examples. -/
def demo : Heap := ⟨fun x => BitVec.ofNat 8 x, 10⟩

/-! ## Reading after writing -/

@[simp] theorem read_length (h : Heap) (a n : Nat) : (read h a n).length = n := by simp [read]

theorem read_getElem? (h : Heap) (a n i : Nat) : (read h a n)[i]? = if i < n then some (h.cells (a + i)) else none := by
  unfold read
  rw [List.getElem?_map]
  by_cases hi : i < n
  · simp [hi]
  · simp [hi]

theorem read_congr (h g : Heap) (a n : Nat) (hc : ∀ k, k < n → h.cells (a + k) = g.cells (a + k)) : read h a n = read g a n := by
  apply List.ext_getElem?
  intro i
  rw [read_getElem?, read_getElem?]
  split
  · next hi => rw [hc i hi]
  · rfl

theorem read_iff (h g : Heap) (a n : Nat) : read h a n = read g a n ↔ ∀ k, k < n → h.cells (a + k) = g.cells (a + k) := by
  refine ⟨fun e k hk => ?_, read_congr h g a n⟩
  have := congrArg (fun l => l[k]?) e
  simp only [read_getElem?, if_pos hk, Option.some.injEq] at this
  exact this

theorem read_add (h : Heap) (a m n : Nat) : read h a (m + n) = read h a m ++ read h (a + m) n := by
  apply List.ext_getElem?
  intro i
  rw [List.getElem?_append, read_getElem?, read_getElem?, read_getElem?, read_length]
  by_cases h1 : i < m
  · rw [if_pos (by omega), if_pos h1, if_pos h1]
  · rw [if_neg h1]
    by_cases h2 : i < m + n
    · rw [if_pos h2, if_pos (by omega)]; congr 2; omega
    · rw [if_neg h2, if_neg (by omega)]

theorem read_take (h : Heap) (a n k : Nat) (hk : k ≤ n) : (read h a n).take k = read h a k := by
  rw [show n = k + (n - k) by omega, read_add, List.take_append_of_le_length (by simp), List.take_of_length_le (by simp)]

theorem read_drop (h : Heap) (a n k : Nat) (hk : k ≤ n) : (read h a n).drop k = read h (a + k) (n - k) := by
  have : read h a n = read h a k ++ read h (a + k) (n - k) := by rw [← read_add]; congr 1; omega
  rw [this, List.drop_append_of_le_length (by simp), List.drop_of_length_le (by simp), List.nil_append]

theorem put_cells (h : Heap) (a : Nat) (p : Bytes) (x : Nat) :
    (put h a p).cells x = if a ≤ x ∧ x < a + p.length then p.getD (x - a) 0#8 else h.cells x := rfl

theorem read_put_apart (h : Heap) (b : Nat) (p : Bytes) (a n : Nat) (hd : a + n ≤ b ∨ b + p.length ≤ a) :
    read (put h b p) a n = read h a n := by
  apply read_congr
  intro k hk
  rw [put_cells, if_neg (by omega)]

theorem read_put_same (h : Heap) (a : Nat) (p : Bytes) : read (put h a p) a p.length = p := by
  apply List.ext_getElem?
  intro i
  rw [read_getElem?]
  split
  · next hi =>
    rw [put_cells, if_pos (by omega), show a + i - a = i by omega]
    simp [List.getD, hi]
  · next hi => rw [List.getElem?_eq_none (by omega)]

/-- What a slice shows of a write that begins inside it. -/
theorem read_put_inside (h : Heap) (a n k : Nat) (p : Bytes) (hk : k + p.length ≤ n) :
    read (put h (a + k) p) a n = read h a k ++ p ++ read h (a + k + p.length) (n - k - p.length) := by
  have : n = k + p.length + (n - k - p.length) := by omega
  conv => lhs; rw [this]
  rw [read_add, read_add, read_put_apart _ _ _ _ _ (by omega), read_put_same, read_put_apart _ _ _ _ _ (by omega), Nat.add_assoc a k]

theorem fresh_next (h : Heap) (p : Bytes) (n : Nat) : (fresh h p n).1.next = h.next + (p.length + n) := rfl

theorem read_fresh_old (h : Heap) (p : Bytes) (n a m : Nat) (ha : a + m ≤ h.next) : read (fresh h p n).1 a m = read h a m :=
  read_put_apart h h.next _ a m (Or.inl ha)

theorem read_fresh_all (h : Heap) (p : Bytes) (n : Nat) :
    read (fresh h p n).1 h.next (p.length + n) = p ++ List.replicate n 0#8 := by
  have := read_put_same h h.next (p ++ List.replicate n 0#8)
  rw [List.length_append, List.length_replicate] at this
  exact this

theorem bytesOf_fresh (h : Heap) (p : Bytes) (n : Nat) : bytesOf (fresh h p n).1 (fresh h p n).2 = p := by
  have := read_take (fresh h p n).1 h.next (p.length + n) p.length (by omega)
  rw [read_fresh_all, List.take_left] at this
  exact this.symm

theorem held_fresh (h : Heap) (p : Bytes) (n : Nat) : Held (fresh h p n).1 (fresh h p n).2 := ⟨by simp [fresh], by simp [fresh]⟩

theorem held_mono (h g : Heap) (s : SliceHeader) (hn : h.next ≤ g.next) (hs : Held h s) : Held g s := ⟨hs.1, Nat.le_trans hs.2 hn⟩

theorem append_next (extra : Nat → Nat → Nat) (h : Heap) (s : Option SliceHeader) (p : Bytes) :
    h.next ≤ (append extra h s p).1.next := by
  unfold append
  split
  · split
    · exact Nat.le_refl _
    · simp [fresh]
  · split
    · exact Nat.le_refl _
    · simp [fresh]

theorem append_held (extra : Nat → Nat → Nat) (h : Heap) (s : Option SliceHeader) (p : Bytes) (hs : ∀ t, s = some t → Held h t) :
    ∀ t, (append extra h s p).2 = some t → Held (append extra h s p).1 t := by
  cases s with
  | none =>
    simp only [append]
    split
    · intro t e; cases e
    · intro t e; cases e; exact held_fresh _ _ _
  | some s =>
    simp only [append]
    split
    · next hc =>
      intro t e; cases e
      exact ⟨hc, (hs s rfl).2⟩
    · intro t e; cases e; exact held_fresh _ _ _

/-- `append` shows the old bytes and then the new ones. -/
theorem append_shown (extra : Nat → Nat → Nat) (h : Heap) (s : Option SliceHeader) (p : Bytes) :
    shown (append extra h s p).1 (append extra h s p).2 = shown h s ++ p := by
  cases s with
  | none =>
    simp only [append]
    split
    · next hp => simp [shown, hp]
    · simp only [shown, List.nil_append]; exact bytesOf_fresh _ _ _
  | some s =>
    simp only [append]
    split
    · simp only [shown, bytesOf]
      rw [read_add, read_put_apart _ _ _ _ _ (by omega), read_put_same]
    · simp only [shown]; exact bytesOf_fresh _ _ _

/-- `append` leaves alone every region in use that does not meet the room behind the slice it fills. -/
theorem append_frame (extra : Nat → Nat → Nat) (h : Heap) (s : Option SliceHeader) (p : Bytes) (a n : Nat) (ha : a + n ≤ h.next)
    (hs : ∀ t, s = some t → t.len + p.length ≤ t.cap → a + n ≤ t.data + t.len ∨ t.data + t.len + p.length ≤ a) :
    read (append extra h s p).1 a n = read h a n := by
  cases s with
  | none =>
    simp only [append]
    split
    · rfl
    · exact read_fresh_old _ _ _ _ _ ha
  | some s =>
    simp only [append]
    split
    · next hc => exact read_put_apart _ _ _ _ _ (hs s rfl hc)
    · exact read_fresh_old _ _ _ _ _ ha

end Memar.Shared
