import Verif.Base

/-!
# Chapar switching: net/chapar

A frame is the list of its bytes; `none` is a panic.  The index arithmetic of the code is on bytes and
wraps modulo 256.  Ports are numbers: what the code hands to a port is an outcome here.
-/

namespace Memar.Chapar
open Memar

/-- net/chapar/const.go:17 -/
def frameFixedLength : Byte := 3#8
/-- net/chapar/const.go:19 -/
def maxHopCount : Byte := 255#8
/-- net/chapar/const.go:20 -/
def broadcastHopCount : Byte := 0#8
/-- net/chapar/const.go:7 -/
def minFrameLen : Nat := 4
/-- net/chapar/const.go:9 -/
def maxFrameLen : Nat := 258
/-- `protocol.Network_FrameType_Chapar`, net/protocol/frame-type.go -/
def frameTypeChapar : Byte := 3#8

/-- net/chapar/frame.go:36 -/
def frameType (f : Bytes) : Option Byte := f[0]?
/-- net/chapar/frame.go:74 -/
def isBroadcastFrame (f : Bytes) : Option Bool := f[1]?.map fun (b : Byte) => b == broadcastHopCount
/-- net/chapar/frame.go:39-44 -/
def hopCount (f : Bytes) : Option Byte :=
  (isBroadcastFrame f).bind fun bc => if bc then some maxHopCount else f[1]?
/-- net/chapar/frame.go:45 -/
def nextHop (f : Bytes) : Option Byte := f[2]?
/-- net/chapar/frame.go:46 -/
def nextPortNum (f : Bytes) : Option Byte := (nextHop f).bind fun (n : Byte) => f[(frameFixedLength + n).toNat]?
/-- net/chapar/frame.go:47 -/
def portNum (f : Bytes) (hop : Byte) : Option Byte := f[(frameFixedLength + hop).toNat]?
/-- net/chapar/frame.go:48 -/
def path (f : Bytes) : Option Bytes :=
  (hopCount f).bind fun (h : Byte) => slice f frameFixedLength.toNat (frameFixedLength + h).toNat
/-- net/chapar/frame.go:51 -/
def setFrameType (f : Bytes) (t : Byte) : Option Bytes := setAt f 0 t
/-- net/chapar/frame.go:52 -/
def setHopCount (f : Bytes) (h : Byte) : Option Bytes := setAt f 1 h
/-- net/chapar/frame.go:53 -/
def setPortNum (f : Bytes) (hop port : Byte) : Option Bytes :=
  setAt f (frameFixedLength + hop).toNat port
/-- net/chapar/frame.go:54 -/
def setPath (f p : Bytes) : Option Bytes :=
  onSliceFrom f frameFixedLength.toNat fun b => some (goCopy b p)
/-- net/chapar/frame.go:14-25 -/
def init (f p : Bytes) : Option Bytes :=
  (setFrameType f frameTypeChapar).bind fun f =>
  (setHopCount f (if BitVec.ofNat 8 p.length = 0#8 then maxHopCount else BitVec.ofNat 8 p.length)).bind
    fun f => setPath f p
/-- net/chapar/frame.go:91; the sum is of bytes. -/
def frameLen (f : Bytes) : Option Nat := (hopCount f).map fun (h : Byte) => (frameFixedLength + h).toNat
/-- net/chapar/frame.go:92 -/
def nextFrame (f : Bytes) : Option Bytes :=
  (hopCount f).bind fun (h : Byte) => sliceFrom f (frameFixedLength + h).toNat

/-- The errors of net/chapar/errors.go that the modelled functions return. -/
inductive Err
  | shortFrameLength | longFrameLength | badFrameType
deriving DecidableEq, Repr

/-- net/chapar/frame.go:58-70; the inner `none` is a nil error. -/
def checkFrame (f : Bytes) : Option (Option Err) :=
  if f.length < minFrameLen then some (some .shortFrameLength)
  else if f.length > maxFrameLen then some (some .longFrameLength)
  else (frameType f).map fun (t : Byte) => if t ≠ frameTypeChapar then some .badFrameType else none

/-- net/chapar/frame.go:77-87: the answer and the frame afterwards. -/
def incrementNextHop (f : Bytes) (received : Byte) : Option (Bool × Bytes) :=
  (nextHop f).bind fun (n : Byte) =>
  (hopCount f).bind fun (h : Byte) =>
  (setPortNum f n received).bind fun f =>
    if n = h - 1#8 then some (true, f)
    else (f[2]?).bind fun (x : Byte) => (setAt f 2 (x + 1#8)).map fun f => (false, f)

/-- What a switch does with a frame: refuses it, accepts it at the last hop (with the path it came
by), passes it on through a port, or broadcasts it. -/
inductive Outcome
  | refused (e : Err)
  | accepted (path frame : Bytes)
  | forwarded (port : Byte) (frame : Bytes)
  | broadcast (frame : Bytes)
deriving DecidableEq, Repr

/-- net/chapar/mux.go:83-122 on the switch whose port number is `port`.  `AcceptLastHop` is the
constant true (net/chapar/const.go:12).  What is done with the connections at the last hop, which may panic, is in
`Verif.Chapar.LastHop`. -/
def receive (port : Byte) (f : Bytes) : Option Outcome :=
  (checkFrame f).bind fun e =>
  match e with
  | some e => some (.refused e)
  | none =>
    (incrementNextHop f port).bind fun r =>
      if r.1 then (path r.2).map fun p => .accepted p r.2
      else (isBroadcastFrame r.2).bind fun bc =>
        if bc then some (.broadcast r.2)
        else (nextPortNum r.2).map fun p => .forwarded p r.2

/-- A frame passing through switches, in the order given, each handing it to the next one: the
outcome at the last of them, with the ports it was sent out of before. -/
def travel (f : Bytes) : List Byte → Option (List Byte × Outcome)
  | [] => none
  | [p] => (receive p f).map fun o => ([], o)
  | p :: q :: ps =>
    (receive p f).bind fun o =>
      match o with
      | .forwarded out f => (travel f (q :: ps)).map fun r => (out :: r.1, r.2)
      | o => some ([], o)

/-! ## The loops over all ports -/

/-- net/chapar/mux.go:73-80: the loop, run for at most `fuel` iterations; `.ok` means that it has ended, `.error` that it has
not, with the port it is at and what it has done so far.  `send` is the effect of `getPort(portNum).Send`. -/
def sendBroadcastLoop {σ} (send : Byte → σ → σ) : Nat → Byte → σ → Except (Byte × σ) σ
  | 0, i, s => .error (i, s)
  | fuel + 1, i, s => if i ≤ 255#8 then sendBroadcastLoop send fuel (i + 1#8) (send i s) else .ok s

/-- net/chapar/mux.go:37-42: the body of the loop in `Init`; `initPort` is the effect of initialising
a port, which is given its number. -/
def initStep {σ} (initPort : Byte → σ → σ) (portNumber i : Byte) (s : σ) : σ :=
  if i = portNumber then initPort i s else s

/-- net/chapar/mux.go:35-43: the same loop in `Init`. -/
def initLoop {σ} (initPort : Byte → σ → σ) (portNumber : Byte) (fuel : Nat) (s : σ) : Except (Byte × σ) σ :=
  sendBroadcastLoop (initStep initPort portNumber) fuel 0#8 s

/-! ## Paths -/

/-- net/chapar/path.go:10-13; the array has 255 bytes. -/
structure Path where
  path : Bytes
  len : Byte
deriving DecidableEq, Repr

/-- A path variable is an array of 255 bytes. -/
def Path.Ok (p : Path) : Prop := p.path.length = 255

/-- net/chapar/path.go:22-25 -/
def Path.set (p : Path) (s : Bytes) : Path := ⟨goCopy p.path s, BitVec.ofNat 8 s.length⟩
/-- net/chapar/path.go:27-29 (and Marshal, 82-84) -/
def Path.get (p : Path) : Option Bytes := sliceTo p.path p.len.toNat
/-- net/chapar/path.go:16-20 -/
def Path.init (p : Path) (frame : Bytes) : Option Path :=
  (hopCount frame).bind fun (h : Byte) =>
  (slice frame frameFixedLength.toNat (frameFixedLength + h).toNat).map fun s => ⟨goCopy p.path s, h⟩
/-- net/chapar/path.go:72-81 -/
def Path.unmarshal (p : Path) (s : Bytes) : Path :=
  if s.length = 0 then p else ⟨goCopy p.path s, BitVec.ofNat 8 s.length⟩
/-- net/chapar/path.go:85-87 -/
def Path.marshalTo (p : Path) (frame : Bytes) : Option Bytes :=
  (sliceTo p.path p.len.toNat).bind fun s =>
  onSliceFrom frame frameFixedLength.toNat fun b => some (goCopy b s)

/-- net/chapar/path.go:40-44: the loop; the result is the reverse array and the last `ln`. -/
def reverseLoop (p : Bytes) (rev : Bytes) (ln j : Byte) : Nat → Option (Bytes × Byte)
  | 0 => none
  | fuel + 1 =>
    if j ≤ ln then
      (p[j.toNat]?).bind fun (a : Byte) =>
      (p[ln.toNat]?).bind fun (b : Byte) =>
      (setAt rev ln.toNat a).bind fun rev =>
      (setAt rev j.toNat b).bind fun rev =>
      reverseLoop p rev (ln - 1#8) (j + 1#8) fuel
    else some (rev, ln)

/-- net/chapar/path.go:36-48, for two different variables.  The loop makes at most 128 rounds. -/
def Path.copyReverseTo (p rev : Path) : Option Path :=
  (reverseLoop p.path rev.path (p.len - 1#8) 0#8 256).map fun r => ⟨r.1, r.2⟩

/-! ## Connections -/

/-- The paths of a connection: net/chapar/connection.go:12-23. -/
structure Connection where
  pathToPeer : Path
  pathFromPeer : Path
  alternativePaths : List Path
deriving DecidableEq, Repr

/-- net/chapar/connection.go:28-39; `Unmarshal` never fails.  The port is not modelled. -/
def Connection.init (c : Connection) (frame : Bytes) : Option Connection :=
  ((c.pathFromPeer.unmarshal frame).copyReverseTo c.pathToPeer).map fun r =>
    { c with pathFromPeer := c.pathFromPeer.unmarshal frame, pathToPeer := r }

/-- net/chapar/connection.go:58-63: the packet and the length afterwards. -/
def Connection.writeFrame (c : Connection) (packet : Bytes) : Option (Bytes × Nat) :=
  (Chapar.init packet c.pathToPeer.path).bind fun f => (frameLen f).map fun n => (f, n)

/-- net/chapar/errors.go -/
inductive PathErr
  | alreadyUse | alreadyExist
deriving DecidableEq, Repr

/-- net/chapar/connection.go:93-106 -/
def Connection.setAlternativePath (c : Connection) (p : Path) : Connection × Option PathErr :=
  if c.pathToPeer.path = p.path then (c, some .alreadyUse)
  else if c.alternativePaths.any fun q => q.path == p.path then (c, some .alreadyExist)
  else ({ c with alternativePaths := c.alternativePaths ++ [p] }, none)

/-- net/chapar/connection.go:125-134 -/
def Connection.changePath (c : Connection) (i : Nat) : Option Connection :=
  (c.alternativePaths[i]?).bind fun alt =>
  (c.pathFromPeer.copyReverseTo alt).bind fun r =>
  (setAt c.alternativePaths i c.pathToPeer).map fun alts =>
    { c with pathToPeer := r, alternativePaths := alts }

end Memar.Chapar
