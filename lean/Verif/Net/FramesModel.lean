import Verif.Net.IpModel
import Verif.Chapar.Model
import Verif.Syllab.Model

/-!
# The frame loop: net/frames.go

`none` is a panic.  The services of the application are a parameter: whether a service id is known.
-/

namespace Memar.Net.Frames
open Memar Binary Net

/-- net/sec/frame-padding.go:17, net/l4/frame-data.go:20 -/
def length16be (f : Bytes) : Option U16 := (sliceFrom f 0).bind BE.uint16
/-- net/srpc/frame-call-service.go:25 -/
def length16le (f : Bytes) : Option U16 := Syllab.getUInt16 f 0#32

/-- net/sec/frame-padding.go:21, net/l4/frame-data.go:26 -/
def nextBe (f : Bytes) : Option Bytes := (length16be f).bind fun (n : U16) => sliceFrom f n.toNat
/-- net/srpc/frame-call-service.go:32 -/
def nextLe (f : Bytes) : Option Bytes := (length16le f).bind fun (n : U16) => sliceFrom f n.toNat
/-- net/srpc/frame-open-stream.go:24 -/
def openServiceID (f : Bytes) : Option U64 := (sliceFrom f 2).bind LE.uint64
/-- net/srpc/frame-open-stream.go:30 -/
def nextOpen (f : Bytes) : Option Bytes := sliceFrom f 25
/-- net/srpc/frame-error.go:22 -/
def nextError (f : Bytes) : Option Bytes := sliceFrom f 16
/-- net/sec/frame-signature.go:24 -/
def nextSignature (f : Bytes) : Option Bytes := sliceFrom f 8

/-- What one evaluation of the loop does. -/
inductive Step
  | returned (err : Bool)
  | next (frames : Bytes)
deriving DecidableEq, Repr

/-- net/frames.go:18-77: one evaluation of the loop condition and body.  The socket `sk` is never
assigned, so the error frame's `sk.ApplicationLayer()` (net/srpc/frame-error.go:25) is a nil
dereference.  The `Do` methods of the other frames return nil without an effect, except that of open
stream frames, which fails for an unknown service (net/srpc/frame-open-stream.go:36-42). -/
def step (known : U64 → Bool) (fr : Bytes) : Option Step :=
  if fr.length = 0 then some (.returned false)
  else
    (fr[0]?).bind fun (t : Byte) =>
      if t = 3#8 then (sliceFrom fr 1).bind fun f => (Chapar.nextFrame f).map .next
      else if t = 4#8 then (sliceFrom fr 1).bind fun f => (Gp.nextFrame f).map .next
      else if t = 5#8 then (sliceFrom fr 1).bind fun f => (nextBe f).map .next
      else if t = 6#8 then (sliceFrom fr 1).bind fun f => (nextLe f).map .next
      else if t = 7#8 then
        (sliceFrom fr 1).bind fun f => (openServiceID f).bind fun (id : U64) =>
          if known id then (nextOpen f).map .next else some (.returned true)
      else if t = 9#8 then (sliceFrom fr 1).bind fun f => (nextBe f).map .next
      else if t = 10#8 then none
      else if t = 11#8 then (sliceFrom fr 1).bind fun f => (nextSignature f).map .next
      else some (.next fr)

/-- The state of a call. -/
inductive Call
  | running (frames : Bytes)
  | returned (err : Bool)
  | panicked
deriving DecidableEq, Repr

/-- net/frames.go:15-79: the call after `k` evaluations of the loop. -/
def run (known : U64 → Bool) : Nat → Bytes → Call
  | 0, fr => .running fr
  | k + 1, fr =>
    match step known fr with
    | none => .panicked
    | some (.returned e) => .returned e
    | some (.next fr) => run known k fr

end Memar.Net.Frames
