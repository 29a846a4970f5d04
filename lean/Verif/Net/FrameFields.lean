import Verif.Net.FramesModel
import Verif.Net.Field

/-!
# The fields of frames: net/l4/frame-data.go, net/sec/frame-*.go, net/srpc/frame-*.go

`none` is a panic. Lengths and next frames are in `Verif.Net.FramesModel`.
-/

namespace Memar.Net.Frames
open Memar Binary Net

/-- net/srpc/frame-call-service.go:26 -/
def callServiceID (f : Bytes) : Option U64 := Syllab.getUInt64 f 2#32
/-- net/srpc/frame-call-service.go:27 -/
def callCompressID (f : Bytes) : Option U64 := Syllab.getUInt64 f 10#32
/-- net/srpc/frame-call-service.go:28; the bits of the `int64`. -/
def callTime (f : Bytes) : Option U64 := Syllab.getInt64 f 18#32
/-- net/srpc/frame-call-service.go:29 -/
def callPayload (f : Bytes) : Option Bytes := (length16le f).bind fun (n : U16) => slice f 26 n.toNat

/-- net/srpc/frame-error.go:18 -/
def errorStreamID (f : Bytes) : Option U64 := Syllab.getUInt64 f 0#32
/-- net/srpc/frame-error.go:19 -/
def errorID (f : Bytes) : Option U64 := Syllab.getUInt64 f 8#32

/-- net/srpc/frame-error.go:24-36 `Do` for a socket with an application layer whose error is `old`: the error afterwards; `byID` is
`protocol.App.GetErrorByID`. Without one (`al == nil`) nothing is done. -/
def errorDo {E : Type} (byID : U64 → Option E) (f : Bytes) (al : Option (Option E)) : Option (Option (Option E)) :=
  match al with
  | none => some none
  | some _ => (errorID f).map fun (id : U64) => some (byID id)

/-- net/sec/frame-padding.go:18 -/
def paddingPayload (f : Bytes) : Option Bytes := (length16be f).bind fun (n : U16) => slice f 2 n.toNat

/-- net/l4/frame-data.go:21 -/
def dataStreamID (f : Bytes) : Option U64 := (sliceFrom f 2).bind BE.uint64
/-- net/l4/frame-data.go:22 -/
def dataOffset (f : Bytes) : Option U32 := get32 f 10
/-- net/l4/frame-data.go:23 -/
def dataPayload (f : Bytes) : Option Bytes := (length16be f).bind fun (n : U16) => slice f 18 n.toNat

/-- net/srpc/frame-open-stream.go:23 -/
def openHandlerID (f : Bytes) : Option U64 := (sliceFrom f 0).bind LE.uint64
/-- net/srpc/frame-open-stream.go:25 -/
def openCompressID (f : Bytes) : Option U64 := (sliceFrom f 10).bind LE.uint64
/-- net/srpc/frame-open-stream.go:26 -/
def openDataLength (f : Bytes) : Option U64 := (sliceFrom f 18).bind LE.uint64
/-- net/srpc/frame-open-stream.go:27 -/
def openWeight (f : Bytes) : Option Byte := f[24]?

/-- What a data frame could change of a socket: the data received and whether the socket is scheduled. -/
structure DataSocket where
  data : Bytes
  scheduled : Bool
deriving DecidableEq, Repr

/-- net/l4/frame-data.go:44-49 `addDataToStream`: the data is not looked at, and the payload is never complete. -/
def addDataToStream (_f : Bytes) (sk : DataSocket) : DataSocket × Bool := (sk, false)

/-- net/l4/frame-data.go:28-37 `Process` -/
def dataProcess (f : Bytes) (sk : DataSocket) : DataSocket :=
  let r := addDataToStream f sk
  if r.2 then { r.1 with scheduled := true } else r.1

end Memar.Net.Frames
