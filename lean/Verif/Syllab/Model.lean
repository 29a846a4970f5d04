import Verif.Binary.Model
import Verif.Binary.Spec

/-!
# Package `syllab`: stack/heap binary encoding

Index parameters are `uint32` in Go; `stackIndex+k` therefore wraps modulo 2^32, which the
model keeps. A write outside the buffer panics (`none`); the bytes written before the panic are
not observable in the model.

`convert.UnsafeXSliceToByteSlice` (convert/*.go) re-labels the memory of a slice; on the
supported little-endian CPUs the memory image of a word is its little-endian digit string, which is
how `memOf` and `ofMem` model it.
-/

namespace Memar.Syllab
open Memar Memar.Binary

/-- Go `byte(n >> k)` for a signed `n` (arithmetic shift). -/
def sbyteAt {n} (v : BitVec n) (k : Nat) : Byte := (v.sshiftRight k).setWidth 8

/-! ## fixed size data -/

/-- syllab/encode.go:14-16 `SetArray` -/
def setArray (p : Bytes) (i : U32) (a : Bytes) : Option Bytes :=
  onSliceFrom p i.toNat fun t => some (goCopy t a)
/-- syllab/encode.go:19-21 `SetByte` -/
def setByte (p : Bytes) (i : U32) (b : Byte) : Option Bytes := setAt p i.toNat b
/-- syllab/encode.go:24-26 `SetInt8` (an `int8` is its two's complement bit vector) -/
def setInt8 (p : Bytes) (i : U32) (n : U8) : Option Bytes := setAt p i.toNat n
/-- syllab/encode.go:29-31 `SetUInt8` -/
def setUInt8 (p : Bytes) (i : U32) (n : U8) : Option Bytes := setAt p i.toNat n
/-- syllab/encode.go:34-40 `SetBool`: the else branch is commented out in the code -/
def setBool (p : Bytes) (i : U32) (b : Bool) : Option Bytes :=
  if b then setAt p i.toNat 1 else some p
/-- syllab/encode.go:43-46 `SetInt16` -/
def setInt16 (p : Bytes) (i : U32) (n : U16) : Option Bytes := do
  let p ← setAt p i.toNat (sbyteAt n 0)
  setAt p (i + 1).toNat (sbyteAt n 8)
/-- syllab/encode.go:49-52 `SetUInt16` -/
def setUInt16 (p : Bytes) (i : U32) (n : U16) : Option Bytes := do
  let p ← setAt p i.toNat (byteAt n 0)
  setAt p (i + 1).toNat (byteAt n 8)
/-- syllab/encode.go:55-60 `SetInt32` -/
def setInt32 (p : Bytes) (i : U32) (n : U32) : Option Bytes := do
  let p ← setAt p i.toNat (sbyteAt n 0)
  let p ← setAt p (i + 1).toNat (sbyteAt n 8)
  let p ← setAt p (i + 2).toNat (sbyteAt n 16)
  setAt p (i + 3).toNat (sbyteAt n 24)
/-- syllab/encode.go:63-68 `SetUInt32` -/
def setUInt32 (p : Bytes) (i : U32) (n : U32) : Option Bytes := do
  let p ← setAt p i.toNat (byteAt n 0)
  let p ← setAt p (i + 1).toNat (byteAt n 8)
  let p ← setAt p (i + 2).toNat (byteAt n 16)
  setAt p (i + 3).toNat (byteAt n 24)
/-- syllab/encode.go:76-85 `SetInt64` -/
def setInt64 (p : Bytes) (i : U32) (n : U64) : Option Bytes := do
  let p ← setAt p i.toNat (sbyteAt n 0)
  let p ← setAt p (i + 1).toNat (sbyteAt n 8)
  let p ← setAt p (i + 2).toNat (sbyteAt n 16)
  let p ← setAt p (i + 3).toNat (sbyteAt n 24)
  let p ← setAt p (i + 4).toNat (sbyteAt n 32)
  let p ← setAt p (i + 5).toNat (sbyteAt n 40)
  let p ← setAt p (i + 6).toNat (sbyteAt n 48)
  setAt p (i + 7).toNat (sbyteAt n 56)
/-- syllab/encode.go:88-97 `SetUInt64` -/
def setUInt64 (p : Bytes) (i : U32) (n : U64) : Option Bytes := do
  let p ← setAt p i.toNat (byteAt n 0)
  let p ← setAt p (i + 1).toNat (byteAt n 8)
  let p ← setAt p (i + 2).toNat (byteAt n 16)
  let p ← setAt p (i + 3).toNat (byteAt n 24)
  let p ← setAt p (i + 4).toNat (byteAt n 32)
  let p ← setAt p (i + 5).toNat (byteAt n 40)
  let p ← setAt p (i + 6).toNat (byteAt n 48)
  setAt p (i + 7).toNat (byteAt n 56)

/-- syllab/decode-safe.go:17-20 `GetFixedByteArray`: `copy` into the nil slice `array` -/
def getFixedByteArray (p : Bytes) (i n : U32) : Option Bytes := do
  let src ← slice p i.toNat (i + n).toNat
  some (goCopy [] src)
/-- syllab/decode-safe.go:23-25 `GetByte` -/
def getByte (p : Bytes) (i : U32) : Option Byte := p[i.toNat]?
/-- syllab/decode-safe.go:28-30 `GetInt8` -/
def getInt8 (p : Bytes) (i : U32) : Option U8 := p[i.toNat]?
/-- syllab/decode-safe.go:33-35 `GetUInt8` -/
def getUInt8 (p : Bytes) (i : U32) : Option U8 := p[i.toNat]?
/-- syllab/decode-safe.go:38-40 `GetBool` -/
def getBool (p : Bytes) (i : U32) : Option Bool := do
  let b ← p[i.toNat]?
  some (b == 1)
/-- syllab/decode-safe.go:43-45 `GetInt16` -/
def getInt16 (p : Bytes) (i : U32) : Option U16 := do
  let b0 ← p[i.toNat]?
  let b1 ← p[(i + 1).toNat]?
  some (or2 b0 b1)
/-- syllab/decode-safe.go:48-50 `GetUInt16` -/
def getUInt16 (p : Bytes) (i : U32) : Option U16 := do
  let b0 ← p[i.toNat]?
  let b1 ← p[(i + 1).toNat]?
  some (or2 b0 b1)
/-- syllab/decode-safe.go:53-55 `GetInt32` -/
def getInt32 (p : Bytes) (i : U32) : Option U32 := do
  let b0 ← p[i.toNat]?
  let b1 ← p[(i + 1).toNat]?
  let b2 ← p[(i + 2).toNat]?
  let b3 ← p[(i + 3).toNat]?
  some (or4 b0 b1 b2 b3)
/-- syllab/decode-safe.go:58-60 `GetUInt32` -/
def getUInt32 (p : Bytes) (i : U32) : Option U32 := do
  let b0 ← p[i.toNat]?
  let b1 ← p[(i + 1).toNat]?
  let b2 ← p[(i + 2).toNat]?
  let b3 ← p[(i + 3).toNat]?
  some (or4 b0 b1 b2 b3)
/-- syllab/decode-safe.go:68-71 `GetInt64` -/
def getInt64 (p : Bytes) (i : U32) : Option U64 := do
  let b0 ← p[i.toNat]?
  let b1 ← p[(i + 1).toNat]?
  let b2 ← p[(i + 2).toNat]?
  let b3 ← p[(i + 3).toNat]?
  let b4 ← p[(i + 4).toNat]?
  let b5 ← p[(i + 5).toNat]?
  let b6 ← p[(i + 6).toNat]?
  let b7 ← p[(i + 7).toNat]?
  some (or8 b0 b1 b2 b3 b4 b5 b6 b7)
/-- syllab/decode-safe.go:74-77 `GetUInt64` -/
def getUInt64 (p : Bytes) (i : U32) : Option U64 := do
  let b0 ← p[i.toNat]?
  let b1 ← p[(i + 1).toNat]?
  let b2 ← p[(i + 2).toNat]?
  let b3 ← p[(i + 3).toNat]?
  let b4 ← p[(i + 4).toNat]?
  let b5 ← p[(i + 5).toNat]?
  let b6 ← p[(i + 6).toNat]?
  let b7 ← p[(i + 7).toNat]?
  some (or8 b0 b1 b2 b3 b4 b5 b6 b7)

/-! Floating point: `SetFloat32` stores `uint32(n)` and `GetFloat32` returns `float32(u)`, i.e. both
convert numerically. The two conversions are parameters (they are hardware operations). -/

/-- The numeric conversions between a float type `F` and an unsigned word, as used by the code. -/
structure FloatConv (F : Type) (n : Nat) where
  /-- Go `uintN(x)` -/
  toWord : F → BitVec n
  /-- Go `floatN(u)` -/
  ofWord : BitVec n → F

/-- syllab/encode.go:71-73 `SetFloat32` -/
def setFloat32 {F} (c : FloatConv F 32) (p : Bytes) (i : U32) (x : F) : Option Bytes :=
  setUInt32 p i (c.toWord x)
/-- syllab/encode.go:100-112 `SetFloat64` -/
def setFloat64 {F} (c : FloatConv F 64) (p : Bytes) (i : U32) (x : F) : Option Bytes :=
  setUInt64 p i (c.toWord x)
/-- syllab/decode-safe.go:63-65 `GetFloat32` -/
def getFloat32 {F} (c : FloatConv F 32) (p : Bytes) (i : U32) : Option F :=
  (getUInt32 p i).map c.ofWord
/-- syllab/decode-safe.go:80-82 `GetFloat64` -/
def getFloat64 {F} (c : FloatConv F 64) (p : Bytes) (i : U32) : Option F :=
  (getUInt64 p i).map c.ofWord
/-- syllab/encode.go:115-118 `SetComplex64` (imaginary part at `stackIndex+3`) -/
def setComplex64 {F} (c : FloatConv F 32) (p : Bytes) (i : U32) (z : F × F) : Option Bytes := do
  let p ← setFloat32 c p i z.1
  setFloat32 c p (i + 3) z.2
/-- syllab/encode.go:121-124 `SetComplex128` (imaginary part at `stackIndex+7`) -/
def setComplex128 {F} (c : FloatConv F 64) (p : Bytes) (i : U32) (z : F × F) : Option Bytes := do
  let p ← setFloat64 c p i z.1
  setFloat64 c p (i + 7) z.2
/-- syllab/decode-safe.go:85-87 `GetComplex64` (imaginary part at `stackIndex+4`) -/
def getComplex64 {F} (c : FloatConv F 32) (p : Bytes) (i : U32) : Option (F × F) := do
  let re ← getFloat32 c p i
  let im ← getFloat32 c p (i + 4)
  some (re, im)
/-- syllab/decode-safe.go:90-92 `GetComplex128` (imaginary part at `stackIndex+8`) -/
def getComplex128 {F} (c : FloatConv F 64) (p : Bytes) (i : U32) : Option (F × F) := do
  let re ← getFloat64 c p i
  let im ← getFloat64 c p (i + 8)
  some (re, im)

/-! ## dynamically sized data -/

/-- Memory image of a slice of `sz`-byte words on a little-endian CPU: what
`convert.UnsafeXSliceToByteSlice` exposes (convert/integer-slice-unsafe.go:31-38 and siblings:
same data pointer, length times the element size). -/
def memOf {n} (sz : Nat) (s : List (BitVec n)) : Bytes :=
  s.flatMap fun v => Spec.leDigits sz v.toNat

/-- Re-labelling bytes as `sz`-byte words: what `convert.UnsafeByteSliceToXSlice` exposes
(convert/integer-slice-unsafe.go:41-48 and siblings: same data pointer, length divided by the
element size, so a trailing fragment is dropped). `k` is the resulting length. -/
def ofMemN {n} (sz : Nat) : Nat → Bytes → List (BitVec n)
  | 0, _ => []
  | k + 1, b => BitVec.ofNat n (Spec.leVal (b.take sz)) :: ofMemN sz k (b.drop sz)

def ofMem {n} (sz : Nat) (b : Bytes) : List (BitVec n) := ofMemN sz (b.length / sz) b

/-- The common shape of the dynamic setters: write the descriptor `(heapAddr, ln)`, copy the
memory image `img` to `p[heapAddr:]`, return `heapAddr + ln*sz`. -/
def setDyn (p : Bytes) (ln : U32) (img : Bytes) (sz : U32) (stackIndex heapAddr : U32) :
    Option (Bytes × U32) := do
  let p ← setUInt32 p stackIndex heapAddr
  let p ← setUInt32 p (stackIndex + 4) ln
  let p ← onSliceFrom p heapAddr.toNat fun t => some (goCopy t img)
  some (p, heapAddr + ln * sz)

/-- Go `uint32(len(s))` -/
def len32 {α} (s : List α) : U32 := BitVec.ofNat 32 s.length

/-- syllab/encode.go:133-147 `SetString`: as `SetByteArray`, with the two `SetUInt32` calls written out -/
def setString (p s : Bytes) (stackIndex heapAddr : U32) : Option (Bytes × U32) := do
  let ln := len32 s
  let p ← setAt p stackIndex.toNat (byteAt heapAddr 0)
  let p ← setAt p (stackIndex + 1).toNat (byteAt heapAddr 8)
  let p ← setAt p (stackIndex + 2).toNat (byteAt heapAddr 16)
  let p ← setAt p (stackIndex + 3).toNat (byteAt heapAddr 24)
  let p ← setAt p (stackIndex + 4).toNat (byteAt ln 0)
  let p ← setAt p (stackIndex + 5).toNat (byteAt ln 8)
  let p ← setAt p (stackIndex + 6).toNat (byteAt ln 16)
  let p ← setAt p (stackIndex + 7).toNat (byteAt ln 24)
  let p ← onSliceFrom p heapAddr.toNat fun t => some (goCopy t s)
  some (p, heapAddr + ln)
/-- syllab/encode.go:150-156 `SetByteArray` and 159-165 `SetInt8Array` -/
def setByteArray (p s : Bytes) (stackIndex heapAddr : U32) : Option (Bytes × U32) :=
  setDyn p (len32 s) s 1 stackIndex heapAddr
/-- syllab/encode.go:168-174 `SetBoolArray`; a Go bool is a byte 0 or 1 in memory -/
def setBoolArray (p : Bytes) (s : List Bool) (stackIndex heapAddr : U32) : Option (Bytes × U32) :=
  setDyn p (len32 s) (s.map fun b => if b then 1 else 0) 1 stackIndex heapAddr
/-- syllab/encode.go:177-192 `SetInt16Array`, `SetUInt16Array` -/
def setUInt16Array (p : Bytes) (s : List U16) (stackIndex heapAddr : U32) : Option (Bytes × U32) :=
  setDyn p (len32 s) (memOf 2 s) 2 stackIndex heapAddr
/-- syllab/encode.go:195-210 `SetInt32Array`, `SetUInt32Array`; syllab/encode.go:231-237 `SetFloat32Array` (a float as its
bit pattern) -/
def setUInt32Array (p : Bytes) (s : List U32) (stackIndex heapAddr : U32) : Option (Bytes × U32) :=
  setDyn p (len32 s) (memOf 4 s) 4 stackIndex heapAddr
/-- syllab/encode.go:213-228 `SetInt64Array`, `SetUInt64Array`; syllab/encode.go:240-255 `SetFloat64Array`,
`SetComplex64Array` (as bit patterns) -/
def setUInt64Array (p : Bytes) (s : List U64) (stackIndex heapAddr : U32) : Option (Bytes × U32) :=
  setDyn p (len32 s) (memOf 8 s) 8 stackIndex heapAddr
/-- syllab/encode.go:258-264 `SetComplex128Array` (as bit patterns) -/
def setComplex128Array (p : Bytes) (s : List (BitVec 128)) (stackIndex heapAddr : U32) :
    Option (Bytes × U32) :=
  setDyn p (len32 s) (memOf 16 s) 16 stackIndex heapAddr

/-- Common shape of the safe dynamic getters: read the descriptor, make a zeroed slice of the
announced length and copy what the re-labelled rest of the buffer offers. -/
def getDyn {n} (sz : Nat) (p : Bytes) (stackIndex : U32) : Option (List (BitVec n)) := do
  let add ← getUInt32 p stackIndex
  let ln ← getUInt32 p (stackIndex + 4)
  let rest ← sliceFrom p add.toNat
  some (goCopy (List.replicate ln.toNat 0) (ofMem sz rest))

/-- syllab/decode-safe.go:106-112 `GetByteArray`, 115-121 `GetInt8Array` -/
def getByteArray (p : Bytes) (stackIndex : U32) : Option Bytes := do
  let add ← getUInt32 p stackIndex
  let ln ← getUInt32 p (stackIndex + 4)
  let rest ← sliceFrom p add.toNat
  some (goCopy (List.replicate ln.toNat 0) rest)
/-- syllab/decode-safe.go:101-103 `GetString` -/
def getString (p : Bytes) (stackIndex : U32) : Option Bytes := getByteArray p stackIndex
/-- syllab/decode-safe.go:124-130 `GetBoolArray`; a byte other than 0 is read as `true` -/
def getBoolArray (p : Bytes) (stackIndex : U32) : Option (List Bool) := do
  let add ← getUInt32 p stackIndex
  let ln ← getUInt32 p (stackIndex + 4)
  let rest ← sliceFrom p add.toNat
  some (goCopy (List.replicate ln.toNat false) (rest.map fun b => b != 0))
/-- syllab/decode-safe.go:133-148 `GetInt16Array`, `GetUInt16Array` -/
def getUInt16Array (p : Bytes) (stackIndex : U32) : Option (List U16) := getDyn 2 p stackIndex
/-- syllab/decode-safe.go:151-166 `GetInt32Array`, `GetUInt32Array`; syllab/decode-safe.go:187-193 `GetFloat32Array` -/
def getUInt32Array (p : Bytes) (stackIndex : U32) : Option (List U32) := getDyn 4 p stackIndex
/-- syllab/decode-safe.go:169-184 `GetInt64Array`, `GetUInt64Array`; syllab/decode-safe.go:196-211 float64/complex64 -/
def getUInt64Array (p : Bytes) (stackIndex : U32) : Option (List U64) := getDyn 8 p stackIndex
/-- syllab/decode-safe.go:214-220 `GetComplex128Array` -/
def getComplex128Array (p : Bytes) (stackIndex : U32) : Option (List (BitVec 128)) :=
  getDyn 16 p stackIndex

/-! Unsafe decoders: sub-slices of the buffer instead of copies. -/

/-- syllab/decode-unsafe.go:29-33 `UnsafeGetByteArray`, 22-26 `UnsafeGetString`, 36-40 `UnsafeGetInt8Array` -/
def unsafeGetByteArray (p : Bytes) (stackIndex : U32) : Option Bytes := do
  let add ← getUInt32 p stackIndex
  let ln ← getUInt32 p (stackIndex + 4)
  slice p add.toNat (add + ln).toNat

/-- Common shape of syllab/decode-unsafe.go:50-117 (word arrays of `sz` bytes). -/
def unsafeGetDyn {n} (sz : Nat) (p : Bytes) (stackIndex : U32) : Option (List (BitVec n)) := do
  let add ← getUInt32 p stackIndex
  let ln ← getUInt32 p (stackIndex + 4)
  let b ← slice p add.toNat (add + ln * BitVec.ofNat 32 sz).toNat
  some (ofMem sz b)

/-! ## arrays of strings -/

/-- syllab/encode.go:279-286, the loop of `SetStringArray`, over the remaining strings -/
def setStringsLoop (p : Bytes) : List Bytes → U32 → U32 → Option (Bytes × U32)
  | [], _, nextHeapAddr => some (p, nextHeapAddr)
  | s :: rest, heapAddr, nextHeapAddr => do
    let eln := len32 s
    let p ← setUInt32 p heapAddr nextHeapAddr
    let p ← setUInt32 p (heapAddr + 4) eln
    let p ← onSliceFrom p nextHeapAddr.toNat fun t => some (goCopy t s)
    setStringsLoop p rest (heapAddr + 8) (nextHeapAddr + eln)

/-- syllab/encode.go:273-288 `SetStringArray`, of fewer than 2^32 strings (the loop counts to the length cut to 32 bits). -/
def setStringArray (p : Bytes) (s : List Bytes) (stackIndex heapAddr : U32) :
    Option (Bytes × U32) := do
  let ln := len32 s
  let p ← setUInt32 p stackIndex heapAddr
  let p ← setUInt32 p (stackIndex + 4) ln
  setStringsLoop p s heapAddr (heapAddr + ln * 8)

/-- syllab/decode-safe.go:234-239, the loop of `GetStringArray` -/
def getStringsLoop (p : Bytes) : Nat → U32 → Option (List Bytes)
  | 0, _ => some []
  | k + 1, add => do
    let eachAdd ← getUInt32 p add
    let eachLn ← getUInt32 p (add + 4)
    let s ← slice p eachAdd.toNat (eachAdd + eachLn).toNat
    let r ← getStringsLoop p k (add + 8)
    some (s :: r)

/-- syllab/decode-safe.go:229-241 `GetStringArray` and syllab/decode-unsafe.go:126-138
`UnsafeGetStringArray` (same values, the latter aliases the buffer) -/
def getStringArray (p : Bytes) (stackIndex : U32) : Option (List Bytes) := do
  let add ← getUInt32 p stackIndex
  let ln ← getUInt32 p (stackIndex + 4)
  getStringsLoop p ln.toNat add

end Memar.Syllab
