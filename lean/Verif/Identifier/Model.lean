import Verif.Binary.Model
import Verif.Time.Model

/-!
# Identifiers: `identifier/uuid-time-16byte`, `identifier/32byte`, `identifier/8byte`,
`identifier/rfc-4122`

An identifier is the list of its bytes.  The random source, the clock, SHA3-256 and the base64
codec of the standard library are parameters.  `none` is a panic.
-/

namespace Memar.Identifier
open Memar

/-- `io.ReadFull(rand.Reader, id[off:])` with the error ignored: the bytes that could be read, which
are fewer than asked for when the source fails, are stored. -/
def readInto (id : Bytes) (off : Nat) (rnd : Bytes) : Bytes :=
  id.take off ++ goCopy (id.drop off) rnd

namespace U16B

/-- identifier/uuid-time-16byte/uuid.go:88-90 -/
def setSecondElapsed (id : Bytes) (sec : Time.I64) : Option Bytes :=
  onSliceFrom id 0 fun b => Binary.LE.putUint64 b sec
/-- identifier/uuid-time-16byte/uuid.go:91-93 -/
def setNanoInSecondElapsed (id : Bytes) (nsec : Time.I32) : Option Bytes :=
  onSliceFrom id 8 fun b => Binary.LE.putUint32 b nsec
/-- identifier/uuid-time-16byte/uuid.go:82-84 -/
def secondElapsed (id : Bytes) : Option Time.I64 := (sliceFrom id 0).bind Binary.LE.uint64
/-- identifier/uuid-time-16byte/uuid.go:85-87 -/
def nanoSecondElapsed (id : Bytes) : Option Time.I32 := (sliceFrom id 8).bind Binary.LE.uint32
/-- The common end of `New` and `NewHash`: identifier/uuid-time-16byte/uuid.go:53-56, 66-69. -/
def setTime (id : Bytes) (now : Time.Time) : Option Bytes :=
  (setSecondElapsed id now.sec).bind fun id => setNanoInSecondElapsed id now.nsec
/-- identifier/uuid-time-16byte/uuid.go:46-57; `rnd` is what the random source yields. -/
def new (id rnd : Bytes) (now : Time.Time) : Option Bytes := setTime (readInto id 12 rnd) now
/-- identifier/uuid-time-16byte/uuid.go:62-70; `sum` is SHA3-256. -/
def newHash (sum : Bytes → Bytes) (id data : Bytes) (now : Time.Time) : Option Bytes :=
  setTime (id.take 12 ++ goCopy (id.drop 12) (sum data)) now
/-- identifier/uuid-time-16byte/uuid.go:73-79 -/
def newRandom (id rnd : Bytes) : Bytes := readInto id 0 rnd
/-- identifier/uuid-time-16byte/uuid.go:81 -/
def id (id : Bytes) : Bytes := goCopy (List.replicate 4 0#8) (id.drop 12)
/-- identifier/uuid-time-16byte/uuid.go:28-31 -/
def existenceTime (id : Bytes) : Option Time.Time :=
  (secondElapsed id).bind fun s => (nanoSecondElapsed id).map fun n => ⟨s, n⟩

end U16B

namespace U32B

/-- identifier/32byte/uuid.go:95-97 -/
def setSecondElapsed (id : Bytes) (sec : Time.I64) : Option Bytes :=
  onSliceFrom id 0 fun b => Binary.LE.putUint64 b sec
/-- identifier/32byte/uuid.go:98-100 -/
def setNanoInSecondElapsed (id : Bytes) (nsec : Time.I32) : Option Bytes :=
  onSliceFrom id 8 fun b => Binary.LE.putUint32 b nsec
/-- identifier/32byte/uuid.go:89-91 -/
def secondElapsed (id : Bytes) : Option Time.I64 := (sliceFrom id 0).bind Binary.LE.uint64
/-- identifier/32byte/uuid.go:92-94 -/
def nanoSecondElapsed (id : Bytes) : Option Time.I32 := (sliceFrom id 8).bind Binary.LE.uint32
/-- identifier/32byte/uuid.go:52-63 -/
def new (id rnd : Bytes) (now : Time.Time) : Option Bytes :=
  (setSecondElapsed (readInto id 12 rnd) now.sec).bind fun id => setNanoInSecondElapsed id now.nsec
/-- identifier/32byte/uuid.go:68-70; `sum` is SHA3-256. -/
def newHash (sum : Bytes → Bytes) (data : Bytes) : Bytes := sum data
/-- identifier/32byte/uuid.go:86-88; a `DataTypeID` is a `uint64`. -/
def id (id : Bytes) : Option U64 := (sliceFrom id 0).bind Binary.LE.uint64
/-- identifier/32byte/uuid.go:30; `enc` is the base64 encoder. -/
def idAsString (enc : Bytes → Bytes) (id : Bytes) : Option Bytes := (sliceTo id 8).map enc
/-- identifier/32byte/uuid.go:43-47 -/
def existenceTime (id : Bytes) : Option Time.Time :=
  (secondElapsed id).bind fun s => (nanoSecondElapsed id).map fun n => ⟨s, n⟩
/-- identifier/32byte/uuid.go:102-112; `dec` is the base64 decoder: the bytes it writes, and whether the whole text was good.  The
destination has eight bytes, and the decoder panics when it writes more, also when it would have met a bad character later.  The code
drops the error and returns zero. -/
def idFromString (dec : Bytes → Bytes × Bool) (s : Bytes) : Option U64 :=
  if (dec s).1.length ≤ 8 then
    if (dec s).2 then Binary.LE.uint64 (goCopy (List.replicate 8 0#8) (dec s).1) else some 0#64
  else none

/-- identifier/32byte/generated.go:7-11 -/
structure Generated where
  uid : Bytes
  id : U64
  idAsString : Bytes
deriving DecidableEq, Repr

/-- identifier/32byte/generated.go:13-17 -/
def Generated.newHashString (sum enc : Bytes → Bytes) (data : Bytes) : Option Generated :=
  (U32B.id (newHash sum data)).bind fun i =>
  (U32B.idAsString enc (newHash sum data)).map fun s => ⟨newHash sum data, i, s⟩

end U32B

namespace U8B

/-- identifier/8byte/uuid.go:82-84 -/
def setSecondElapsed (id : Bytes) (sec : Time.I64) : Option Bytes :=
  onSliceFrom id 0 fun b => Binary.LE.putUint64 b (sec <<< (64 - 40))
/-- identifier/8byte/uuid.go:77-81; the shift is that of the signed `duration.Second`. -/
def secondElapsed (id : Bytes) : Option Time.I64 :=
  ((sliceFrom id 0).bind Binary.LE.uint64).map fun v => v.sshiftRight (64 - 40)
/-- identifier/8byte/uuid.go:43-53 -/
def new (id rnd : Bytes) (now : Time.Time) : Option Bytes :=
  setSecondElapsed (readInto id 5 rnd) now.sec
/-- identifier/8byte/uuid.go:58-65 -/
def newHash (sum : Bytes → Bytes) (id data : Bytes) (now : Time.Time) : Option Bytes :=
  setSecondElapsed (id.take 5 ++ goCopy (id.drop 5) (sum data)) now.sec
/-- identifier/8byte/uuid.go:76 -/
def id (id : Bytes) : Bytes := goCopy (List.replicate 3 0#8) (id.drop 5)
/-- identifier/8byte/uuid.go:24-28 -/
def existenceTime (id : Bytes) : Option Time.Time :=
  (secondElapsed id).map fun s => ⟨s, 0#32⟩

end U8B

namespace Rfc4122

/-- identifier/rfc-4122/uuid.go:28-40; `rnd` is what the random source yields. -/
def v4 (rnd : Bytes) : Option Bytes :=
  if rnd.length < 16 then none
  else
    ((readInto (List.replicate 16 0#8) 0 rnd)[6]?).bind fun (b6 : Byte) =>
    (setAt (readInto (List.replicate 16 0#8) 0 rnd) 6 ((b6 &&& 0x0f#8) ||| (0x04#8 <<< 4))).bind fun u =>
    (u[8]?).bind fun (b8 : Byte) =>
    setAt u 8 ((b8 &&& (0xff#8 >>> 2)) ||| (0x02#8 <<< 6))

/-- The table of `encoding/hex` in the standard library. -/
def hextable : Bytes := bs "0123456789abcdef"

/-- `hex.Encode` of the standard library, from position `j` of the destination on. -/
def hexEncode (dst : Bytes) (j : Nat) : Bytes → Option Bytes
  | [] => some dst
  | v :: src =>
    (setAt dst j (hextable.getD (v >>> 4).toNat 0#8)).bind fun dst =>
    (setAt dst (j + 1) (hextable.getD (v &&& 0x0f#8).toNat 0#8)).bind fun dst =>
    hexEncode dst (j + 2) src

/-- A mutation of the sub-slice `s[i:j]`, seen from the whole slice. -/
def onSlice (s : Bytes) (i j : Nat) (f : Bytes → Option Bytes) : Option Bytes :=
  (slice s i j).bind fun t => (f t).map fun t' => s.take i ++ t' ++ s.drop j

/-- `hex.Encode(dst[i:j], uuid[a:b])` -/
def encodePart (dst : Bytes) (i j : Nat) (uuid : Bytes) (a b : Nat) : Option Bytes :=
  (slice uuid a b).bind fun src => onSlice dst i j fun t => hexEncode t 0 src

/-- identifier/rfc-4122/uuid.go:86-96 -/
def encodeHex (dst uuid : Bytes) : Option Bytes := do
  let dst ← encodePart dst 0 dst.length uuid 0 4
  let dst ← setAt dst 8 (ch '-')
  let dst ← encodePart dst 9 13 uuid 4 6
  let dst ← setAt dst 13 (ch '-')
  let dst ← encodePart dst 14 18 uuid 6 8
  let dst ← setAt dst 18 (ch '-')
  let dst ← encodePart dst 19 23 uuid 8 10
  let dst ← setAt dst 23 (ch '-')
  encodePart dst 24 dst.length uuid 10 16

/-- identifier/rfc-4122/uuid.go:71-75 -/
def toString (uuid : Bytes) : Option Bytes := encodeHex (List.replicate 36 0#8) uuid

/-- identifier/rfc-4122/utility.go:17-30 -/
def utilityToString (uuid : Bytes) : Option Bytes := do
  let buf := List.replicate 36 0#8
  let buf ← encodePart buf 0 8 uuid 0 4
  let buf ← setAt buf 8 (ch '-')
  let buf ← encodePart buf 9 13 uuid 4 6
  let buf ← setAt buf 13 (ch '-')
  let buf ← encodePart buf 14 18 uuid 6 8
  let buf ← setAt buf 18 (ch '-')
  let buf ← encodePart buf 19 23 uuid 8 10
  let buf ← setAt buf 23 (ch '-')
  encodePart buf 24 buf.length uuid 10 16

/-- identifier/rfc-4122/uuid.go:79-84 -/
def uri (uuid : Bytes) : Option Bytes :=
  onSliceFrom (goCopy (List.replicate 45 0#8) (bs "urn:uuid:")) 9 fun b => encodeHex b uuid

/-- The value of a hexadecimal digit in `encoding/hex` of the standard library. -/
def fromHexChar (c : Byte) : Option Byte :=
  if 48#8 ≤ c ∧ c ≤ 57#8 then some (c - 48#8)
  else if 97#8 ≤ c ∧ c ≤ 102#8 then some (c - 97#8 + 10#8)
  else if 65#8 ≤ c ∧ c ≤ 70#8 then some (c - 65#8 + 10#8)
  else none

/-- `hex.Decode` of the standard library with its error dropped, from position `i` of the
destination on: it stops at the first bad character, and panics when the destination is full. -/
def hexDecode (dst : Bytes) (i : Nat) : Bytes → Option Bytes
  | p :: q :: src =>
    match fromHexChar p, fromHexChar q with
    | some a, some b => (setAt dst i ((a <<< 4) ||| b)).bind fun dst => hexDecode dst (i + 1) src
    | _, _ => some dst
  | _ => some dst

/-- `hex.Decode(uuid[a:b], text[i:j])` -/
def decodePart (uuid : Bytes) (a b : Nat) (text : Bytes) (i j : Nat) : Option Bytes :=
  (slice text i j).bind fun src => onSlice uuid a b fun t => hexDecode t 0 src

/-- identifier/rfc-4122/uuid.go:59-67: the local copy of the receiver at the end of the body. -/
def fromStringLocal (uuid text : Bytes) : Option Bytes := do
  let u ← decodePart uuid 0 4 text 0 8
  let u ← decodePart u 4 6 text 9 13
  let u ← decodePart u 6 8 text 14 18
  let u ← decodePart u 8 10 text 19 23
  decodePart u 10 16 text 24 text.length

/-- identifier/rfc-4122/uuid.go:59-67: the caller's variable afterwards.  The receiver is a value, so
the body works on a copy. -/
def fromString (uuid text : Bytes) : Option Bytes := (fromStringLocal uuid text).map fun _ => uuid

/-- identifier/rfc-4122/utility.go:33-35 -/
def utilityFromString (_ : Bytes) : Bytes := List.replicate 16 0#8

/-- identifier/rfc-4122/uuid.go:98 -/
def firstUint64 (uuid : Bytes) : Option U64 := (sliceFrom uuid 0).bind Binary.LE.uint64
/-- identifier/rfc-4122/uuid.go:99 -/
def lastUint64 (uuid : Bytes) : Option U64 := (sliceFrom uuid 8).bind Binary.LE.uint64
/-- identifier/rfc-4122/uuid.go:100 -/
def firstUint32 (uuid : Bytes) : Option U32 := (sliceFrom uuid 0).bind Binary.LE.uint32

end Rfc4122
end Memar.Identifier
