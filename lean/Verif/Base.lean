/-!
# Shared vocabulary for the model of memar-go

Go's `byte`, `uintN` and `intN` are bit vectors, a Go slice or string is the list of its
elements, and a run-time panic is the value `none` of `Option`.

Simplification used everywhere unless a definition says otherwise: the capacity of a slice
equals its length, so re-slicing past the length panics. `Verif.Shared.Windows` models the
getters with a length field in buffers that are larger than the message.
-/

deriving instance DecidableEq for Except

namespace Memar

abbrev U8 := BitVec 8
abbrev U16 := BitVec 16
abbrev U32 := BitVec 32
abbrev U64 := BitVec 64
abbrev Byte := U8
abbrev Bytes := List Byte

/-- The bytes of an ASCII literal (Go string literals are byte sequences). -/
def bs (s : String) : Bytes := s.toList.map fun c => BitVec.ofNat 8 c.toNat

/-- The byte of an ASCII character literal. -/
def ch (c : Char) : Byte := BitVec.ofNat 8 c.toNat

/-- Go `s[i] = v`: panics when the index is out of range. -/
def setAt {α} (s : List α) (i : Nat) (v : α) : Option (List α) :=
  if i < s.length then some (s.set i v) else none

/-- Go `s[i:]`: panics when `i > len(s)`. -/
def sliceFrom {α} (s : List α) (i : Nat) : Option (List α) :=
  if i ≤ s.length then some (s.drop i) else none

/-- Go `s[:j]`: panics when `j > len(s)`. -/
def sliceTo {α} (s : List α) (j : Nat) : Option (List α) :=
  if j ≤ s.length then some (s.take j) else none

/-- Go `s[i:j]`: panics unless `i ≤ j ≤ len(s)`. -/
def slice {α} (s : List α) (i j : Nat) : Option (List α) :=
  if i ≤ j ∧ j ≤ s.length then some ((s.take j).drop i) else none

/-- Go `copy(dst, src)`: overwrites the first `min(len(dst), len(src))` elements of `dst`. -/
def goCopy {α} (dst src : List α) : List α :=
  src.take dst.length ++ dst.drop src.length

/-- Running a mutation `f` on the sub-slice `s[i:]`, seen from the whole slice `s`
(the sub-slice shares the backing array). -/
def onSliceFrom {α} (s : List α) (i : Nat) (f : List α → Option (List α)) : Option (List α) := do
  let t ← sliceFrom s i
  let t' ← f t
  some (s.take i ++ t')

end Memar
