import Verif.Base

/-!
# Package `binary`: fixed-width integers in byte buffers

The Go types `BigEndian` and `LittleEndian` are byte slices with methods. Two build variants
exist: the one for little-endian CPUs (`*-in-le-cpu.go`) and the one for big-endian CPUs
(`*-in-be-cpu.go`). The `init` functions, which only check the CPU, are modelled in `Verif/Binary/Cpu.lean`.
-/

namespace Memar.Binary
open Memar

/-- The expression `uintN(x0) | uintN(x1)<<8` with `N = 16`. -/
def or2 (x0 x1 : Byte) : U16 := x0.setWidth 16 ||| (x1.setWidth 16 <<< 8)

/-- The expression `uintN(x0) | uintN(x1)<<8 | uintN(x2)<<16 | uintN(x3)<<24` with `N = 32`. -/
def or4 (x0 x1 x2 x3 : Byte) : U32 :=
  x0.setWidth 32 ||| (x1.setWidth 32 <<< 8) ||| (x2.setWidth 32 <<< 16) ||| (x3.setWidth 32 <<< 24)

/-- The eight-term expression of `Uint64`. -/
def or8 (x0 x1 x2 x3 x4 x5 x6 x7 : Byte) : U64 :=
  x0.setWidth 64 ||| (x1.setWidth 64 <<< 8) ||| (x2.setWidth 64 <<< 16) ||| (x3.setWidth 64 <<< 24) |||
  (x4.setWidth 64 <<< 32) ||| (x5.setWidth 64 <<< 40) ||| (x6.setWidth 64 <<< 48) |||
  (x7.setWidth 64 <<< 56)

/-- Go `byte(v >> k)`. -/
def byteAt {n} (v : BitVec n) (k : Nat) : Byte := (v >>> k).setWidth 8

namespace BE
/-- binary/be-in-le-cpu.go:12-15 `BigEndian.Uint16` -/
def uint16 (b : Bytes) : Option U16 := do
  let _ ← b[1]?
  let b0 ← b[0]?; let b1 ← b[1]?
  some (or2 b1 b0)
/-- binary/be-in-le-cpu.go:16-19 `BigEndian.Uint32` -/
def uint32 (b : Bytes) : Option U32 := do
  let _ ← b[3]?
  let b0 ← b[0]?; let b1 ← b[1]?; let b2 ← b[2]?; let b3 ← b[3]?
  some (or4 b3 b2 b1 b0)
/-- binary/be-in-le-cpu.go:21-25 `BigEndian.Uint64` -/
def uint64 (b : Bytes) : Option U64 := do
  let _ ← b[7]?
  let b0 ← b[0]?; let b1 ← b[1]?; let b2 ← b[2]?; let b3 ← b[3]?
  let b4 ← b[4]?; let b5 ← b[5]?; let b6 ← b[6]?; let b7 ← b[7]?
  some (or8 b7 b6 b5 b4 b3 b2 b1 b0)
/-- binary/be-in-le-cpu.go:27-31 `BigEndian.PutUint16` -/
def putUint16 (b : Bytes) (v : U16) : Option Bytes := do
  let _ ← b[1]?
  let b ← setAt b 0 (byteAt v 8)
  setAt b 1 (byteAt v 0)
/-- binary/be-in-le-cpu.go:32-38 `BigEndian.PutUint32` -/
def putUint32 (b : Bytes) (v : U32) : Option Bytes := do
  let _ ← b[3]?
  let b ← setAt b 0 (byteAt v 24)
  let b ← setAt b 1 (byteAt v 16)
  let b ← setAt b 2 (byteAt v 8)
  setAt b 3 (byteAt v 0)
/-- binary/be-in-le-cpu.go:39-49 `BigEndian.PutUint64` -/
def putUint64 (b : Bytes) (v : U64) : Option Bytes := do
  let _ ← b[7]?
  let b ← setAt b 0 (byteAt v 56)
  let b ← setAt b 1 (byteAt v 48)
  let b ← setAt b 2 (byteAt v 40)
  let b ← setAt b 3 (byteAt v 32)
  let b ← setAt b 4 (byteAt v 24)
  let b ← setAt b 5 (byteAt v 16)
  let b ← setAt b 6 (byteAt v 8)
  setAt b 7 (byteAt v 0)
end BE

namespace LE
/-- binary/le-in-le-cpu.go:14-17 `LittleEndian.Uint16` -/
def uint16 (b : Bytes) : Option U16 := do
  let _ ← b[1]?
  let b0 ← b[0]?; let b1 ← b[1]?
  some (or2 b0 b1)
/-- binary/le-in-le-cpu.go:18-21 `LittleEndian.Uint32` -/
def uint32 (b : Bytes) : Option U32 := do
  let _ ← b[3]?
  let b0 ← b[0]?; let b1 ← b[1]?; let b2 ← b[2]?; let b3 ← b[3]?
  some (or4 b0 b1 b2 b3)
/-- binary/le-in-le-cpu.go:22-26 `LittleEndian.Uint64` -/
def uint64 (b : Bytes) : Option U64 := do
  let _ ← b[7]?
  let b0 ← b[0]?; let b1 ← b[1]?; let b2 ← b[2]?; let b3 ← b[3]?
  let b4 ← b[4]?; let b5 ← b[5]?; let b6 ← b[6]?; let b7 ← b[7]?
  some (or8 b0 b1 b2 b3 b4 b5 b6 b7)
/-- binary/le-in-le-cpu.go:28-32 `LittleEndian.PutUint16` -/
def putUint16 (b : Bytes) (v : U16) : Option Bytes := do
  let _ ← b[1]?
  let b ← setAt b 0 (byteAt v 0)
  setAt b 1 (byteAt v 8)
/-- binary/le-in-le-cpu.go:33-39 `LittleEndian.PutUint32` -/
def putUint32 (b : Bytes) (v : U32) : Option Bytes := do
  let _ ← b[3]?
  let b ← setAt b 0 (byteAt v 0)
  let b ← setAt b 1 (byteAt v 8)
  let b ← setAt b 2 (byteAt v 16)
  setAt b 3 (byteAt v 24)
/-- binary/le-in-le-cpu.go:40-50 `LittleEndian.PutUint64` -/
def putUint64 (b : Bytes) (v : U64) : Option Bytes := do
  let _ ← b[7]?
  let b ← setAt b 0 (byteAt v 0)
  let b ← setAt b 1 (byteAt v 8)
  let b ← setAt b 2 (byteAt v 16)
  let b ← setAt b 3 (byteAt v 24)
  let b ← setAt b 4 (byteAt v 32)
  let b ← setAt b 5 (byteAt v 40)
  let b ← setAt b 6 (byteAt v 48)
  setAt b 7 (byteAt v 56)
end LE

/-! `BigEndian` as compiled for a big-endian CPU. -/
namespace BEonBE
/-- binary/be-in-be-cpu.go:14-17 -/
def uint16 (b : Bytes) : Option U16 := do
  let _ ← b[1]?
  let b0 ← b[0]?; let b1 ← b[1]?
  some (or2 b0 b1)
/-- binary/be-in-be-cpu.go:18-21 -/
def uint32 (b : Bytes) : Option U32 := do
  let _ ← b[3]?
  let b0 ← b[0]?; let b1 ← b[1]?; let b2 ← b[2]?; let b3 ← b[3]?
  some (or4 b0 b1 b2 b3)
/-- binary/be-in-be-cpu.go:22-26 -/
def uint64 (b : Bytes) : Option U64 := do
  let _ ← b[7]?
  let b0 ← b[0]?; let b1 ← b[1]?; let b2 ← b[2]?; let b3 ← b[3]?
  let b4 ← b[4]?; let b5 ← b[5]?; let b6 ← b[6]?; let b7 ← b[7]?
  some (or8 b0 b1 b2 b3 b4 b5 b6 b7)
/-- binary/be-in-be-cpu.go:28-32 -/
def putUint16 (b : Bytes) (v : U16) : Option Bytes := do
  let _ ← b[1]?
  let b ← setAt b 0 (byteAt v 0)
  setAt b 1 (byteAt v 8)
/-- binary/be-in-be-cpu.go:33-39 -/
def putUint32 (b : Bytes) (v : U32) : Option Bytes := do
  let _ ← b[3]?
  let b ← setAt b 0 (byteAt v 0)
  let b ← setAt b 1 (byteAt v 8)
  let b ← setAt b 2 (byteAt v 16)
  setAt b 3 (byteAt v 24)
/-- binary/be-in-be-cpu.go:40-50 -/
def putUint64 (b : Bytes) (v : U64) : Option Bytes := do
  let _ ← b[7]?
  let b ← setAt b 0 (byteAt v 0)
  let b ← setAt b 1 (byteAt v 8)
  let b ← setAt b 2 (byteAt v 16)
  let b ← setAt b 3 (byteAt v 24)
  let b ← setAt b 4 (byteAt v 32)
  let b ← setAt b 5 (byteAt v 40)
  let b ← setAt b 6 (byteAt v 48)
  setAt b 7 (byteAt v 56)
end BEonBE

/-! `LittleEndian` as compiled for a big-endian CPU. -/
namespace LEonBE
/-- binary/le-in-be-cpu.go:12-15 -/
def uint16 (b : Bytes) : Option U16 := do
  let _ ← b[1]?
  let b0 ← b[0]?; let b1 ← b[1]?
  some (or2 b1 b0)
/-- binary/le-in-be-cpu.go:16-19 -/
def uint32 (b : Bytes) : Option U32 := do
  let _ ← b[3]?
  let b0 ← b[0]?; let b1 ← b[1]?; let b2 ← b[2]?; let b3 ← b[3]?
  some (or4 b3 b2 b1 b0)
/-- binary/le-in-be-cpu.go:20-24 -/
def uint64 (b : Bytes) : Option U64 := do
  let _ ← b[7]?
  let b0 ← b[0]?; let b1 ← b[1]?; let b2 ← b[2]?; let b3 ← b[3]?
  let b4 ← b[4]?; let b5 ← b[5]?; let b6 ← b[6]?; let b7 ← b[7]?
  some (or8 b7 b6 b5 b4 b3 b2 b1 b0)
/-- binary/le-in-be-cpu.go:26-30 -/
def putUint16 (b : Bytes) (v : U16) : Option Bytes := do
  let _ ← b[1]?
  let b ← setAt b 0 (byteAt v 8)
  setAt b 1 (byteAt v 0)
/-- binary/le-in-be-cpu.go:31-37 -/
def putUint32 (b : Bytes) (v : U32) : Option Bytes := do
  let _ ← b[3]?
  let b ← setAt b 0 (byteAt v 24)
  let b ← setAt b 1 (byteAt v 16)
  let b ← setAt b 2 (byteAt v 8)
  setAt b 3 (byteAt v 0)
/-- binary/le-in-be-cpu.go:38-48 -/
def putUint64 (b : Bytes) (v : U64) : Option Bytes := do
  let _ ← b[7]?
  let b ← setAt b 0 (byteAt v 56)
  let b ← setAt b 1 (byteAt v 48)
  let b ← setAt b 2 (byteAt v 40)
  let b ← setAt b 3 (byteAt v 32)
  let b ← setAt b 4 (byteAt v 24)
  let b ← setAt b 5 (byteAt v 16)
  let b ← setAt b 6 (byteAt v 8)
  setAt b 7 (byteAt v 0)
end LEonBE

/-- binary/binary.go:5 `Bool` -/
def bool (b : Bytes) : Option Bool := do
  let b0 ← b[0]?
  some (b0 != 0)
/-- binary/binary.go:6 `Uint8` -/
def uint8 (b : Bytes) : Option U8 := b[0]?
/-- binary/binary.go:8-14 `PutBool` -/
def putBool (b : Bytes) (v : Bool) : Option Bytes :=
  if v then setAt b 0 1 else setAt b 0 0
/-- binary/binary.go:15-17 `PutUint8` -/
def putUint8 (b : Bytes) (v : U8) : Option Bytes := setAt b 0 v

end Memar.Binary
