import Verif.Net.TcpModel

/-!
# Model of the TCP stream (`net/tcp/stream*.go`, `net/tcp/option.go`)

A stream is handled by one worker (net/tcp/stream.go:14), so its methods are sequential steps.  The
receive buffer belongs to the socket behind an interface: `Append` adds at the end, and what
`Insert` does is a parameter of `receive`.  The methods whose body is a TODO (`sendSYN`,
`sendQuickACK`, `sendFIN`, `checkSegmentFlags`, `checkPushFlag`, `reset`) do nothing and return nil,
and are modelled as such.  A panic is `none`.
-/

namespace Memar.Tcp
open Memar Net Net.Tcp

/-- net/tcp/stream-status.go:14-46 -/
inductive Status
  | unset | listen | synSent | synReceived | established | close | closeWait | closing | lastAck
  | timeWait | finWait1 | finWait2
deriving DecidableEq, Repr

/-- What a method of the stream returns. -/
inductive Err
  | ok
  /-- the two errors of `CheckSegment` -/
  | tooShort | wrongLength
  /-- an error of the receive buffer -/
  | buffer
deriving DecidableEq, Repr

/-- The fields of net/tcp/stream.go:15-46 that are read or written by the code: the maximum segment
size, `recv.next` (net/tcp/stream-recv.go:11) and the status; the content of the socket's receive buffer, and
how many times the application layer was asked to process the socket. -/
structure Stream where
  mss : Nat
  status : Status
  next : U32
  buf : Bytes
  scheduled : Nat
deriving DecidableEq, Repr

/-- The receive buffer's `Insert` (adt/protocol/container-operations.go:138-141): the new content, or
an error. -/
abbrev InsertFn := Bytes → Nat → Bytes → Option Bytes

/-- net/tcp/stream.go:51-70 `Init`; the timers are in `Verif.Tcp.Timing`. -/
def init (s : Stream) : Stream := { s with mss := 536, status := .listen }

/-- net/tcp/stream.go:98-103 `Open` -/
def openStream (s : Stream) : Stream := { s with status := .synSent }

/-- net/tcp/stream-internal.go:165-173 `sendACK` -/
def sendACK (s : Stream) : Stream := { s with next := s.next + 1#32 }

/-- net/tcp/stream-internal.go:195-203 `validateSequence`: `sn-exceptedNext` is a `uint32`. -/
def validateSequence (ins : InsertFn) (s : Stream) (sn : U32) (p : Bytes) : Stream × Err :=
  match ins s.buf (sn - s.next).toNat p with
  | some b => ({ s with buf := b }, .ok)
  | none => (s, .buffer)

/-- net/tcp/stream-internal.go:24-39 -/
def onListen (s : Stream) (seg : Bytes) : Option (Stream × Err) :=
  (flag .syn seg).map fun syn => (if syn then { s with status := .synReceived } else s, .ok)

/-- net/tcp/stream-internal.go:41-50: `&&` reads the second flag only if the first is set, but both
are in the same byte. -/
def onSynSent (s : Stream) (seg : Bytes) : Option (Stream × Err) :=
  (flag .syn seg).bind fun syn =>
  (flag .ack seg).map fun ack => (if syn && ack then { s with status := .established } else s, .ok)

/-- net/tcp/stream-internal.go:57-81; the error of `Append` is taken to be nil. -/
def onEstablished (ins : InsertFn) (s : Stream) (seg : Bytes) : Option (Stream × Err) :=
  (payload seg).bind fun p =>
  (sequenceNumber seg).bind fun sn =>
    if sn = s.next then
      (flag .psh seg).map fun psh =>
        let s1 := sendACK s
        let s2 := { s1 with buf := s1.buf ++ p }
        (if psh then { s2 with scheduled := s2.scheduled + 1 } else s2, .ok)
    else some (validateSequence ins s sn p)

/-- net/tcp/stream.go:114-152 `Receive`: the handlers of the other states
(net/tcp/stream-internal.go:52-55 and 83-116) have empty bodies. -/
def receive (ins : InsertFn) (s : Stream) (seg : Bytes) : Option (Stream × Err) :=
  (checkSegment seg).bind fun c =>
    match c with
    | .tooShort => some (s, .tooShort)
    | .wrongLength => some (s, .wrongLength)
    | .ok =>
      match s.status with
      | .listen => onListen s seg
      | .synSent => onSynSent s seg
      | .established => onEstablished ins s seg
      | _ => some (s, .ok)

/-- `Receive` for each segment that arrives, whatever it returns. -/
def receiveAll (ins : InsertFn) (s : Stream) : List Bytes → Option Stream
  | [] => some s
  | seg :: segs => (receive ins s seg).bind fun r => receiveAll ins r.1 segs

/-- net/tcp/stream-internal.go:214-218 -/
def needReset (s : Stream) : Bool :=
  s.status == .established || s.status == .closeWait || s.status == .finWait1 ||
    s.status == .finWait2 || s.status == .synReceived

/-! ## Options -/

/-- How a call that may loop for ever stands after some rounds. -/
inductive Progress
  | panic
  | running
  | done
deriving DecidableEq, Repr

/-- net/tcp/stream-internal.go:118-141 `handleOptions`, at most `fuel` rounds of its loop;
`optionMSS.Process` (net/tcp/option-mss.go:22-24) does nothing.  `options.Payload()` is `o[1:]` and
`NextOption` of the MSS option is `o[3:]` of that. -/
def handleOptions : Nat → Bytes → Progress
  | _, [] => .done
  | 0, _ :: _ => .running
  | fuel + 1, k :: rest =>
    if k = 0#8 then .done
    else if k = 2#8 then
      if 3 ≤ rest.length then handleOptions fuel (rest.drop 3) else .panic
    else handleOptions fuel (k :: rest)

/-- The option types with a fixed offset to the following option: net/tcp/option-*.go `NextOption`,
as the offset from the byte after the kind. -/
inductive OptionKind
  | mss | windowScale | sackPermitted | echo | echoReply | timestamps | partialOrderPermitted
  | partialOrderProfile | cc | ccNew | ccEcho | altChecksum
deriving DecidableEq, Repr

/-- net/tcp/option-mss.go:20, net/tcp/option-window-scale.go:14, net/tcp/option-stack-permited.go:14,
net/tcp/option-echo.go:14, net/tcp/option-echo-reply.go:14, net/tcp/option-timestamps.go:14,
net/tcp/option-partial-order-connection-permitted.go:16, net/tcp/option-partial-order-service-profile.go:27,
net/tcp/option-cc.go:14, net/tcp/option-ccnew.go:14, net/tcp/option-ccecho.go:14, net/tcp/option-alt-checksum.go:14 -/
def OptionKind.nextOffset : OptionKind → Nat
  | .mss => 3
  | .windowScale => 2
  | .sackPermitted => 1
  | .echo => 5
  | .echoReply => 5
  | .timestamps => 8
  | .partialOrderPermitted => 3
  | .partialOrderProfile => 3
  | .cc => 5
  | .ccNew => 5
  | .ccEcho => 5
  | .altChecksum => 3

/-- `NextOption`, from the byte after the kind. -/
def nextOption (k : OptionKind) (o : Bytes) : Option Bytes := sliceFrom o k.nextOffset

/-! ## SYN retries -/

/-- net/tcp/stream-internal-syn.go:18-21 and net/tcp/stream-internal-syn-ack.go:9-12 -/
structure Retry where
  max : U8
  count : U8
deriving DecidableEq, Repr

/-- net/tcp/stream-internal-syn.go:23-30 `Init`, `Reinit` (net/tcp/const.go:21) -/
def synInit (r : Retry) : Retry := { r with max := 6#8 }
/-- net/tcp/stream-internal-syn-ack.go:14-21 (net/tcp/const.go:25) -/
def synAckInit (r : Retry) : Retry := { r with max := 5#8 }
/-- net/tcp/stream-internal-syn.go:42-44 and net/tcp/stream-internal-syn-ack.go:33-35 -/
def retrySend (r : Retry) : Retry := { r with count := r.count + 1#8 }
/-- net/tcp/stream-internal-syn.go:35-40 and net/tcp/stream-internal-syn-ack.go:26-31 -/
def reachMax (r : Retry) : Bool := r.max.ult r.count

end Memar.Tcp
