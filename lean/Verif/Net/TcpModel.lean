import Verif.Net.Field

/-!
# TCP segments: net/tcp/segment.go

A segment is a byte slice.  Every accessor is an `Option`; `none` is the panic of an index or slice
expression that is out of range.
-/

namespace Memar.Net.Tcp
open Memar Net

/-- net/tcp/const.go:198 `CNF_Segment_MinSize` -/
def minSize : Nat := 20

/-- The results of `CheckSegment`. -/
inductive Check
  | ok
  | tooShort
  | wrongLength
deriving DecidableEq, Repr

/-- net/tcp/segment.go:31 -/
def sourcePort (s : Bytes) : Option U16 := get16 s 0
/-- net/tcp/segment.go:32 -/
def destinationPort (s : Bytes) : Option U16 := get16 s 2
/-- net/tcp/segment.go:33 -/
def sequenceNumber (s : Bytes) : Option U32 := get32 s 4
/-- net/tcp/segment.go:34 -/
def ackNumber (s : Bytes) : Option U32 := get32 s 8
/-- net/tcp/segment.go:35 -/
def dataOffset (s : Bytes) : Option U8 := s[12]?.map fun (b : Byte) => (b >>> 4) * 4#8
/-- net/tcp/segment.go:36 -/
def window (s : Bytes) : Option U16 := get16 s 14
/-- net/tcp/segment.go:37 -/
def checksum (s : Bytes) : Option U16 := get16 s 16
/-- net/tcp/segment.go:38 -/
def urgentPointer (s : Bytes) : Option U16 := get16 s 18
/-- net/tcp/segment.go:39 -/
def options (s : Bytes) : Option Bytes := (dataOffset s).bind fun d => slice s 20 d.toNat
/-- net/tcp/segment.go:40 -/
def payload (s : Bytes) : Option Bytes := (dataOffset s).bind fun d => sliceFrom s d.toNat

/-- net/tcp/segment.go:17-26 -/
def checkSegment (s : Bytes) : Option Check :=
  if s.length < minSize then some .tooShort
  else (dataOffset s).map fun d => if s.length < d.toNat then .wrongLength else .ok

/-- net/tcp/segment.go:45 -/
def setSourcePort (s : Bytes) (v : U16) : Option Bytes := put16 s 0 v
/-- net/tcp/segment.go:46 -/
def setDestinationPort (s : Bytes) (v : U16) : Option Bytes := put16 s 2 v
/-- net/tcp/segment.go:47 -/
def setSequenceNumber (s : Bytes) (v : U32) : Option Bytes := put32 s 4 v
/-- net/tcp/segment.go:48 -/
def setAckNumber (s : Bytes) (v : U32) : Option Bytes := put32 s 8 v
/-- net/tcp/segment.go:49 -/
def setDataOffset (s : Bytes) (ln : U8) : Option Bytes :=
  modAt s 12 fun b => ((ln / 4#8) <<< 4) ||| b
/-- net/tcp/segment.go:50 -/
def setFlagPartOne (s : Bytes) (flags : Byte) : Option Bytes := modAt s 12 fun b => b ||| flags
/-- net/tcp/segment.go:51 -/
def setFlagPartTwo (s : Bytes) (flags : Byte) : Option Bytes := setAt s 13 flags
/-- net/tcp/segment.go:52 -/
def setWindow (s : Bytes) (v : U16) : Option Bytes := put16 s 14 v
/-- net/tcp/segment.go:53 -/
def setChecksum (s : Bytes) (v : U16) : Option Bytes := put16 s 16 v
/-- net/tcp/segment.go:54 -/
def setUrgentPointer (s : Bytes) (v : U16) : Option Bytes := put16 s 18 v
/-- net/tcp/segment.go:55 -/
def setOptions (s : Bytes) (o : Bytes) : Option Bytes := putArr s 20 o
/-- net/tcp/segment.go:56 -/
def setPayload (s : Bytes) (p : Bytes) : Option Bytes :=
  (dataOffset s).bind fun d => putArr s d.toNat p

/-- The twelve flags of net/tcp/flag.go:8-21. -/
inductive Flag
  | reserved1 | reserved2 | reserved3 | ns | cwr | ece | urg | ack | psh | rst | syn | fin
deriving DecidableEq, Repr

/-- The byte in which net/tcp/segment.go:61-98 looks for the flag. -/
def Flag.index : Flag → Nat
  | .reserved1 | .reserved2 | .reserved3 | .ns => 12
  | _ => 13

/-- net/tcp/flag.go:8-21 -/
def Flag.mask : Flag → Byte
  | .reserved1 => 0b00001000#8
  | .reserved2 => 0b00000100#8
  | .reserved3 => 0b00000010#8
  | .ns => 0b00000001#8
  | .cwr => 0b10000000#8
  | .ece => 0b01000000#8
  | .urg => 0b00100000#8
  | .ack => 0b00010000#8
  | .psh => 0b00001000#8
  | .rst => 0b00000100#8
  | .syn => 0b00000010#8
  | .fin => 0b00000001#8

/-- net/tcp/segment.go:61-72 -/
def flag (f : Flag) (s : Bytes) : Option Bool := s[f.index]?.map fun b => b &&& f.mask != 0#8
/-- net/tcp/segment.go:74-85 -/
def setFlag (f : Flag) (s : Bytes) : Option Bytes := modAt s f.index fun b => b ||| f.mask
/-- net/tcp/segment.go:87-98 -/
def unsetFlag (f : Flag) (s : Bytes) : Option Bytes := modAt s f.index fun b => b &&& ~~~f.mask

end Memar.Net.Tcp
