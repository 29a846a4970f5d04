import Verif.Shared.Mem
import Verif.Buffer.Props

/-!
# The flat buffer in shared memory (`buffer/flat.go`), C284

`Verif.Buffer.Model` gives the buffer an array of its own. Here the buffer holds a slice of the memory it shares with its users: the
slice it was given by `Init` or `Set`, and the slices `Bytes` answered.
-/

namespace Memar.Shared
open Memar.Convert

/-- buffer/flat.go:14-17; `buf = none` is the nil slice. -/
structure Flat where
  buf : Option SliceHeader
  off : Nat
  deriving DecidableEq, Repr

namespace Flat

/-- buffer/flat.go:19-21 `Init` and 55 `Set`: the buffer keeps the caller's slice. -/
def set (b : Flat) (s : Option SliceHeader) : Flat := { b with buf := s }

/-- buffer/flat.go:23-26 `Reset`: the array is kept. -/
def reset (b : Flat) : Flat := ⟨b.buf.map fun s => ⟨s.data, 0, s.cap⟩, 0⟩

/-- buffer/flat.go:28 `Bytes`: the buffer's own slice. -/
def bytes (b : Flat) : Option SliceHeader := b.buf

/-- buffer/flat.go:57-67 `Write` and `WriteString` of what `p` shows. -/
def write (extra : Nat → Nat → Nat) (h : Heap) (b : Flat) (p : Bytes) : Heap × Flat :=
  ((append extra h b.buf p).1, { b with buf := (append extra h b.buf p).2 })

/-- buffer/flat.go:68 `WriteByte` -/
def writeByte (extra : Nat → Nat → Nat) (h : Heap) (b : Flat) (c : Byte) : Heap × Flat :=
  ((append extra h b.buf [c]).1, { b with buf := (append extra h b.buf [c]).2 })

/-- `make([]byte, 0, n)`, buffer/flat.go:79 and 99 -/
def first (h : Heap) (b : Flat) (n : Int) : Heap × Flat :=
  ((fresh h [] (Buffer.firstSize n).toNat).1, { b with buf := some ⟨h.next, 0, (Buffer.firstSize n).toNat⟩ })

/-- buffer/flat.go:89-91 and 110-112: a new array of `2*cap + n` bytes that begins with the old bytes, shown up to `len`. -/
def move (h : Heap) (b : Flat) (s : SliceHeader) (n : Int) (len : Nat) : Heap × Flat :=
  ((fresh h (bytesOf h s) ((2 * (s.cap : Int) + n).toNat - s.len)).1,
    { b with buf := some ⟨h.next, len, (2 * (s.cap : Int) + n).toNat⟩ })

/-- buffer/flat.go:74-92 `Grow` -/
def grow (h : Heap) (b : Flat) (n : Int) : Heap × Flat :=
  match b.buf with
  | none => first h b n
  | some s => if n ≤ (s.cap : Int) - s.len then (h, b) else move h b s n s.len

/-- buffer/flat.go:94-114 `GrowLen`: re-slicing to a negative length panics. -/
def growLen (h : Heap) (b : Flat) (n : Int) : Option (Nat × Heap × Flat) :=
  match b.buf with
  | none => some (0, first h b n)
  | some s =>
    if n ≤ (s.cap : Int) - s.len then
      if (s.len : Int) + n < 0 then none
      else some (s.len, h, { b with buf := some ⟨s.data, ((s.len : Int) + n).toNat, s.cap⟩ })
    else some (s.len, move h b s n ((s.len : Int) + n).toNat)

/-- The buffer of `Verif.Buffer.Model` that has the same bytes in an array of its own. -/
def view (h : Heap) (b : Flat) : Buffer.Flat := ⟨b.buf.map fun s => ⟨read h s.data s.cap, s.len⟩, b.off⟩

/-- Every buffer a program holds satisfies this. -/
def Ok (h : Heap) (b : Flat) : Prop := ∀ s, b.buf = some s → Held h s

end Flat

/-! ## A history -/

/-- What the users of a buffer do: the calls, a store into the memory they share, and an allocation of their own. -/
inductive BOp
  | set (s : SliceHeader)
  | reset
  | write (p : Bytes)
  | writeByte (c : Byte)
  | grow (n : Int)
  | growLen (n : Int)
deriving DecidableEq, Repr

/-- One call; a panic is `none`. -/
def BOp.run (extra : Nat → Nat → Nat) (w : Heap × Flat) : BOp → Option (Heap × Flat)
  | .set s => some (w.1, w.2.set (some s))
  | .reset => some (w.1, w.2.reset)
  | .write p => some (w.2.write extra w.1 p)
  | .writeByte c => some (w.2.writeByte extra w.1 c)
  | .grow n => some (w.2.grow w.1 n)
  | .growLen n => (w.2.growLen w.1 n).map fun r => r.2

/-- The same call on the buffer with an array of its own; `Set` gives it a copy of what the slice shows. -/
def BOp.runOwn (extra : Nat → Nat → Nat) (h : Heap) (b : Buffer.Flat) : BOp → Option Buffer.Flat
  | .set s => some (Buffer.set b (some ⟨read h s.data s.cap, s.len⟩))
  | .reset => some (Buffer.reset b)
  | .write p => some (Buffer.write extra b p).2
  | .writeByte c => some (Buffer.writeByte extra b c)
  | .grow n => some (Buffer.grow b n)
  | .growLen n => (Buffer.growLen b n).map fun r => r.2

/-- Running calls in turn. -/
def BOp.runs (extra : Nat → Nat → Nat) : Heap × Flat → List BOp → Option (Heap × Flat)
  | w, [] => some w
  | w, o :: os => (o.run extra w).bind fun v => BOp.runs extra v os

/-! ## The buffer with an array of its own -/

open Flat in
theorem append_view (extra : Nat → Nat → Nat) (h : Heap) (b : Flat) (hb : b.Ok h) (p : Bytes) :
    view (append extra h b.buf p).1 { b with buf := (append extra h b.buf p).2 } =
      { view h b with buf := Buffer.append extra (view h b).buf p } := by
  obtain ⟨buf, off⟩ := b
  cases buf with
  | none =>
    simp only [append, view, Option.map_none, Buffer.append]
    split
    · rfl
    · simp only [Option.map_some, fresh, read_fresh_all h p (extra 0 p.length)]
      congr 3
      exact read_fresh_all h p (extra 0 p.length)
  | some s =>
    obtain ⟨hs, _⟩ := hb s rfl
    simp only [append, view, Option.map_some, Buffer.append, read_length]
    by_cases hc : s.len + p.length ≤ s.cap
    · rw [if_pos hc, if_pos hc]
      simp only [Option.map_some]
      rw [read_put_inside _ _ _ _ _ hc, read_take _ _ _ _ hs, read_drop _ _ _ _ hc]
      rw [Nat.add_assoc, Nat.sub_sub]
    · rw [if_neg hc, if_neg hc]
      simp only [Option.map_some, Buffer.Slice.data, read_take _ _ _ _ hs]
      have := read_fresh_all h (bytesOf h s ++ p) (extra s.cap (s.len + p.length))
      simp only [fresh] at this ⊢
      rw [this]
      simp [bytesOf]

open Flat in
theorem move_view (h : Heap) (b : Flat) (s : SliceHeader) (hs : Held h s) (n : Int) (hn : (s.cap : Int) - s.len < n) (len : Nat) :
    view (move h b s n len).1 (move h b s n len).2 =
      ⟨some ⟨goCopy (List.replicate (2 * (s.cap : Int) + n).toNat 0#8) (bytesOf h s), len⟩, b.off⟩ := by
  have hl : (bytesOf h s).length = s.len := by simp [bytesOf]
  have := read_fresh_all h (bytesOf h s) ((2 * (s.cap : Int) + n).toNat - s.len)
  rw [hl, show s.len + ((2 * (s.cap : Int) + n).toNat - s.len) = (2 * (s.cap : Int) + n).toNat by have := hs.1; omega] at this
  simp only [view, move, Option.map_some, this]
  congr 3
  unfold goCopy
  rw [List.take_of_length_le (by have := hs.1; simp [hl]; omega), List.drop_replicate, hl]

open Flat in
theorem first_view (h : Heap) (b : Flat) (n : Int) :
    view (first h b n).1 (first h b n).2 = { view h b with buf := some ⟨List.replicate (Buffer.firstSize n).toNat 0#8, 0⟩ } := by
  have := read_fresh_all h [] (Buffer.firstSize n).toNat
  simp only [List.length_nil, Nat.zero_add, List.nil_append] at this
  simp only [view, first, Option.map_some, this]

theorem run_view (extra : Nat → Nat → Nat) (h : Heap) (b : Flat) (hb : b.Ok h) (op : BOp) :
    (op.run extra (h, b)).map (fun w => w.2.view w.1) = op.runOwn extra h (b.view h) := by
  cases op with
  | set s => rfl
  | reset => cases hbuf : b.buf <;> simp [BOp.run, BOp.runOwn, Flat.reset, Flat.view, Buffer.reset, hbuf]
  | write p => simp only [BOp.run, BOp.runOwn, Option.map_some, Buffer.write]; rw [← append_view extra h b hb p]; rfl
  | writeByte c => simp only [BOp.run, BOp.runOwn, Option.map_some, Buffer.writeByte]; rw [← append_view extra h b hb [c]]; rfl
  | grow n =>
    simp only [BOp.run, BOp.runOwn, Option.map_some]
    cases hbuf : b.buf with
    | none => simp only [Flat.grow, hbuf, Buffer.grow, first_view]; simp [Flat.view, hbuf]
    | some s =>
      have hs := hb s hbuf
      have e : (b.view h).buf = some ⟨read h s.data s.cap, s.len⟩ := by simp [Flat.view, hbuf]
      simp only [Flat.grow, hbuf, Buffer.grow, e, read_length]
      split
      · rfl
      · next hn => rw [move_view h b s hs n (by omega) s.len]; simp only [Buffer.Slice.data, read_take _ _ _ _ hs.1]; rfl
  | growLen n =>
    simp only [BOp.run, BOp.runOwn]
    cases hbuf : b.buf with
    | none => simp only [Flat.growLen, hbuf, Buffer.growLen, Option.map_some, first_view]; simp [Flat.view, hbuf]
    | some s =>
      have hs := hb s hbuf
      have e : (b.view h).buf = some ⟨read h s.data s.cap, s.len⟩ := by simp [Flat.view, hbuf]
      simp only [Flat.growLen, hbuf, Buffer.growLen, e, read_length]
      split
      · split
        · rfl
        · simp [Flat.view, hbuf]
      · next hn =>
        simp only [Option.map_some]
        rw [move_view h b s hs n (by omega)]; simp only [Buffer.Slice.data, read_take _ _ _ _ hs.1]; rfl

theorem move_ok (h : Heap) (b : Flat) (s : SliceHeader) (hs : Held h s) (n : Int) (hn : (s.cap : Int) - s.len < n) (len : Nat)
    (hl : len ≤ (2 * (s.cap : Int) + n).toNat) : (Flat.move h b s n len).2.Ok (Flat.move h b s n len).1 := by
  intro t e
  cases e
  refine ⟨hl, ?_⟩
  have := hs.1
  simp only [Flat.move, fresh, bytesOf, read_length]; omega

theorem run_ok (extra : Nat → Nat → Nat) (h : Heap) (b : Flat) (hb : b.Ok h) (op : BOp) (hset : ∀ s, op = .set s → Held h s)
    (w : Heap × Flat) (hw : op.run extra (h, b) = some w) : w.2.Ok w.1 ∧ h.next ≤ w.1.next := by
  cases op with
  | set s => cases hw; exact ⟨fun t e => by cases e; exact hset s rfl, Nat.le_refl _⟩
  | reset =>
    cases hw
    refine ⟨fun t e => ?_, Nat.le_refl _⟩
    cases hbuf : b.buf with
    | none => simp [Flat.reset, hbuf] at e
    | some s => simp [Flat.reset, hbuf] at e; cases e; exact ⟨Nat.zero_le _, (hb s hbuf).2⟩
  | write p => cases hw; exact ⟨fun t e => append_held extra h b.buf p hb t e, append_next _ _ _ _⟩
  | writeByte c => cases hw; exact ⟨fun t e => append_held extra h b.buf [c] hb t e, append_next _ _ _ _⟩
  | grow n =>
    cases hw
    cases hbuf : b.buf with
    | none =>
      simp only [Flat.grow, hbuf]
      refine ⟨fun t e => ?_, by simp [Flat.first, fresh]⟩
      cases e; exact ⟨by simp, by simp [Flat.first, fresh]⟩
    | some s =>
      have hs := hb s hbuf
      simp only [Flat.grow, hbuf]
      split
      · exact ⟨hb, Nat.le_refl _⟩
      · next hn => exact ⟨move_ok h b s hs n (by omega) s.len (by have := hs.1; omega), by simp [Flat.move, fresh]⟩
  | growLen n =>
    simp only [BOp.run] at hw
    cases hbuf : b.buf with
    | none =>
      simp only [Flat.growLen, hbuf, Option.map_some, Option.some.injEq] at hw
      subst hw
      refine ⟨fun t e => ?_, by simp [Flat.first, fresh]⟩
      cases e; exact ⟨by simp, by simp [Flat.first, fresh]⟩
    | some s =>
      have hs := hb s hbuf
      simp only [Flat.growLen, hbuf] at hw
      split at hw
      · split at hw
        · simp at hw
        · simp only [Option.map_some, Option.some.injEq] at hw
          subst hw
          exact ⟨fun t e => by cases e; exact ⟨by simp; omega, hs.2⟩, Nat.le_refl _⟩
      · next hn =>
        simp only [Option.map_some, Option.some.injEq] at hw
        subst hw
        exact ⟨move_ok h b s hs n (by omega) _ (by have := hs.1; omega), by simp [Flat.move, fresh]⟩

end Memar.Shared
