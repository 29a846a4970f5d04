import Verif.Base

/-!
# Model of the flat buffer (`buffer/flat.go`)

Here capacity matters: a slice is a backing array, seen from the start of the slice, and a length.
How much the Go runtime over-allocates when `append` has to move is a parameter `extra` (any
function of the old capacity and the needed length).  Integers are mathematical.  A panic is `none`.
Who else refers to the backing array is in `Verif/Shared/Buffer.lean`.
-/

namespace Memar.Buffer

/-- A non-nil Go slice: its capacity is the length of `arr`. -/
structure Slice where
  arr : Bytes
  len : Nat
deriving DecidableEq, Repr

/-- buffer/flat.go:14-17; `buf = none` is the nil slice. -/
structure Flat where
  buf : Option Slice
  off : Nat
deriving DecidableEq, Repr

def Slice.data (s : Slice) : Bytes := s.arr.take s.len

/-- Go `len(b.buf)` -/
def blen (b : Flat) : Nat :=
  match b.buf with
  | none => 0
  | some s => s.len

/-- buffer/flat.go:70 `Cap` -/
def cap (b : Flat) : Nat :=
  match b.buf with
  | none => 0
  | some s => s.arr.length

/-- buffer/flat.go:28-29 `Bytes`, `String` -/
def bytes (b : Flat) : Bytes :=
  match b.buf with
  | none => []
  | some s => s.data

/-- Every Go slice satisfies this. -/
def Flat.Wf (b : Flat) : Prop := ∀ s, b.buf = some s → s.len ≤ s.arr.length

/-- buffer/flat.go:19-21 `Init` and 55 `Set`: only the slice is replaced, the read offset stays. -/
def set (b : Flat) (s : Option Slice) : Flat := { b with buf := s }

/-- buffer/flat.go:23-26 -/
def reset (b : Flat) : Flat := ⟨b.buf.map fun s => ⟨s.arr, 0⟩, 0⟩

/-- Go `append(b.buf, p...)`. -/
def append (extra : Nat → Nat → Nat) (s : Option Slice) (p : Bytes) : Option Slice :=
  match s with
  | none => if p = [] then none else some ⟨p ++ List.replicate (extra 0 p.length) 0#8, p.length⟩
  | some s =>
    if s.len + p.length ≤ s.arr.length then
      some ⟨s.arr.take s.len ++ p ++ s.arr.drop (s.len + p.length), s.len + p.length⟩
    else
      some ⟨s.data ++ p ++ List.replicate (extra s.arr.length (s.len + p.length)) 0#8,
        s.len + p.length⟩

/-- buffer/flat.go:57-67 `Write` and `WriteString`: the number of bytes written and the buffer. -/
def write (extra : Nat → Nat → Nat) (b : Flat) (p : Bytes) : Nat × Flat :=
  (p.length, { b with buf := append extra b.buf p })

/-- buffer/flat.go:68 -/
def writeByte (extra : Nat → Nat → Nat) (b : Flat) (c : Byte) : Flat :=
  { b with buf := append extra b.buf [c] }

/-- buffer/flat.go:32-35: how many bytes `Read` will copy.  `n` is the result variable and still
zero when it is compared. -/
def readLen (b : Flat) : Int :=
  if (0 : Int) < 0 ∨ 0 > (blen b : Int) - b.off then (blen b : Int) - b.off else 0

/-- The bytes of `b.buf` from `i` to `j`, which may lie beyond the length. -/
def region (b : Flat) (i j : Nat) : Bytes :=
  match b.buf with
  | none => []
  | some s => (s.arr.take j).drop i

/-- buffer/flat.go:31-39 `Read`: the number of bytes read, the destination afterwards and the
buffer.  `b.buf[b.off:b.off+n]` is allowed up to the capacity. -/
def read (b : Flat) (p : Bytes) : Option (Int × Bytes × Flat) :=
  if (b.off : Int) ≤ b.off + readLen b ∧ b.off + readLen b ≤ cap b then
    some (readLen b, goCopy p (region b b.off (b.off + readLen b).toNat),
      { b with off := (b.off + readLen b).toNat })
  else none

/-- buffer/flat.go:41-48 `ReadByte`: the error is always nil. -/
def readByte (b : Flat) : Option (Byte × Flat) :=
  if (blen b : Int) - b.off > 1 then
    match (bytes b)[b.off]? with
    | some c => some (c, { b with off := b.off + 1 })
    | none => none
  else some (0#8, b)

/-- buffer/flat.go:50-53 -/
def readAt (b : Flat) (_offset _limit : Nat) : Bytes × Flat :=
  ((bytes b).drop (blen b), { b with off := blen b })

/-- buffer/flat.go:72 -/
def lenOfUnread (b : Flat) : Int := (blen b : Int) - b.off

/-- buffer/flat.go:12 -/
def smallBufferSize : Int := 64

/-- The size of a new allocation when there was none, buffer/flat.go:76-79 and 96-99. -/
def firstSize (n : Int) : Int := if n ≤ smallBufferSize then smallBufferSize else n

/-- buffer/flat.go:74-92 `Grow`; the size `2*buffCap + n` is positive where it is used. -/
def grow (b : Flat) (n : Int) : Flat :=
  match b.buf with
  | none => { b with buf := some ⟨List.replicate (firstSize n).toNat 0#8, 0⟩ }
  | some s =>
    if n ≤ (s.arr.length : Int) - s.len then b
    else
      ⟨some ⟨goCopy (List.replicate (2 * (s.arr.length : Int) + n).toNat 0#8) s.data, s.len⟩,
        b.off⟩

/-- buffer/flat.go:94-114 `GrowLen`: re-slicing to a negative length panics. -/
def growLen (b : Flat) (n : Int) : Option (Nat × Flat) :=
  match b.buf with
  | none => some (0, { b with buf := some ⟨List.replicate (firstSize n).toNat 0#8, 0⟩ })
  | some s =>
    if n ≤ (s.arr.length : Int) - s.len then
      if (s.len : Int) + n < 0 then none
      else some (s.len, { b with buf := some ⟨s.arr, ((s.len : Int) + n).toNat⟩ })
    else
      some (s.len,
        ⟨some ⟨goCopy (List.replicate (2 * (s.arr.length : Int) + n).toNat 0#8) s.data,
          ((s.len : Int) + n).toNat⟩, b.off⟩)

end Memar.Buffer
