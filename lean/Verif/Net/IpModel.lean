import Verif.Net.Field

/-!
# IPv4 and IPv6 packets, UDP datagrams and GP frames

net/ipv4/packet.go, net/ipv6/packet.go, net/udp/packet.go, net/gp/frame.go, net/gp/address.go.
A packet is a byte slice; `none` is a panic.
-/

namespace Memar.Net

/-- The results of the `CheckPacket` and `CheckFrame` methods. -/
inductive PacketCheck
  | ok
  | tooShort
  | wrongLength
  | badType
deriving DecidableEq, Repr

namespace Ipv4
open Memar Net

/-- net/ipv4/const.go:22 `MinHeaderLen` -/
def minHeaderLen : Nat := 40
/-- net/ipv4/packet.go:29 -/
def version (p : Bytes) : Option U8 := p[0]?.map fun (b : Byte) => b >>> 4
/-- net/ipv4/packet.go:30 -/
def ihl (p : Bytes) : Option U8 := p[0]?.map fun (b : Byte) => (b &&& 0x0f#8) * 4#8
/-- net/ipv4/packet.go:31 -/
def dscp (p : Bytes) : Option U8 := p[1]?.map fun (b : Byte) => b >>> 2
/-- net/ipv4/packet.go:32 -/
def totalLength (p : Bytes) : Option U16 := get16 p 2
/-- net/ipv4/packet.go:33 -/
def identification (p : Bytes) : Option Bytes := getArr p 4 2
/-- net/ipv4/packet.go:34 -/
def fragmentOffset (p : Bytes) : Option U16 :=
  (get16 p 6).map fun v => v &&& 0b1110000000000000#16
/-- net/ipv4/packet.go:35 -/
def timeToLive (p : Bytes) : Option U8 := p[8]?
/-- net/ipv4/packet.go:36 -/
def protocol (p : Bytes) : Option U8 := p[9]?
/-- net/ipv4/packet.go:37 -/
def headerChecksum (p : Bytes) : Option Bytes := getArr p 10 2
/-- net/ipv4/packet.go:38 -/
def sourceAddr (p : Bytes) : Option Bytes := getArr p 12 4
/-- net/ipv4/packet.go:39 -/
def destinationAddr (p : Bytes) : Option Bytes := getArr p 16 4
/-- net/ipv4/packet.go:40 -/
def options (p : Bytes) : Option Bytes := sliceFrom p 20
/-- net/ipv4/packet.go:41 -/
def payload (p : Bytes) : Option Bytes := (ihl p).bind fun n => sliceFrom p n.toNat

/-- net/ipv4/packet.go:15-24 -/
def checkPacket (p : Bytes) : Option PacketCheck :=
  if p.length < minHeaderLen then some .tooShort
  else (ihl p).map fun n => if p.length < n.toNat then .wrongLength else .ok

/-- net/ipv4/packet.go:46 -/
def setVersion (p : Bytes) (v : U8) : Option Bytes := setAt p 0 (v <<< 4)
/-- net/ipv4/packet.go:47 -/
def setIHL (p : Bytes) (ln : U8) : Option Bytes := modAt p 0 fun b => b ||| (ln / 4#8)
/-- net/ipv4/packet.go:48 -/
def setDSCP (p : Bytes) (d : U8) : Option Bytes := modAt p 1 fun b => b ||| (d >>> 2)
/-- net/ipv4/packet.go:49 -/
def setTotalLength (p : Bytes) (v : U16) : Option Bytes := put16 p 2 v
/-- net/ipv4/packet.go:50 -/
def setIdentification (p : Bytes) (id : Bytes) : Option Bytes := putArr p 4 id
/-- net/ipv4/packet.go:51 -/
def setFragmentOffset (p : Bytes) (v : U16) : Option Bytes := put16 p 6 v
/-- net/ipv4/packet.go:52 -/
def setTimeToLive (p : Bytes) (v : U8) : Option Bytes := setAt p 8 v
/-- net/ipv4/packet.go:53 -/
def setProtocol (p : Bytes) (v : U8) : Option Bytes := setAt p 9 v
/-- net/ipv4/packet.go:54 -/
def setHeaderChecksum (p : Bytes) (c : Bytes) : Option Bytes := putArr p 10 c
/-- net/ipv4/packet.go:55 -/
def setSourceAddr (p : Bytes) (a : Bytes) : Option Bytes := putArr p 12 a
/-- net/ipv4/packet.go:56 -/
def setDestinationAddr (p : Bytes) (a : Bytes) : Option Bytes := putArr p 16 a
/-- net/ipv4/packet.go:57 -/
def setOptions (p : Bytes) (o : Bytes) : Option Bytes := putArr p 20 o
/-- net/ipv4/packet.go:58 -/
def setPayload (p : Bytes) (d : Bytes) : Option Bytes :=
  (ihl p).bind fun n => putArr p n.toNat d

/-- net/ipv4/flag.go:5-14 -/
inductive Flag
  | reserved | df | mf | ect0 | ect1 | ce
deriving DecidableEq, Repr

/-- The byte in which net/ipv4/packet.go:64-85 looks for the flag. -/
def Flag.index : Flag → Nat
  | .reserved | .df | .mf => 6
  | _ => 1

/-- net/ipv4/flag.go:5-14 -/
def Flag.mask : Flag → Byte
  | .reserved => 0b10000000#8
  | .df => 0b01000000#8
  | .mf => 0b00100000#8
  | .ect0 => 0b00000010#8
  | .ect1 => 0b00000001#8
  | .ce => 0b00000011#8

/-- net/ipv4/packet.go:64-69 -/
def flag (f : Flag) (p : Bytes) : Option Bool :=
  p[f.index]?.map fun (b : Byte) => b &&& f.mask != 0#8
/-- net/ipv4/packet.go:72-77 -/
def setFlag (f : Flag) (p : Bytes) : Option Bytes := modAt p f.index fun b => b ||| f.mask
/-- net/ipv4/packet.go:80-85 -/
def unsetFlag (f : Flag) (p : Bytes) : Option Bytes := modAt p f.index fun b => b &&& ~~~f.mask
/-- net/ipv4/packet.go:63 -/
def flagECT (p : Bytes) : Option Bool :=
  (flag .ect0 p).bind fun a => if a then some true else flag .ect1 p
/-- net/ipv4/packet.go:71 -/
def setFlagECT (p : Bytes) : Option Bytes := setFlag .ect0 p
/-- net/ipv4/packet.go:79 -/
def unsetFlagECT (p : Bytes) : Option Bytes := modAt p 1 fun b => b &&& ~~~Flag.ce.mask

end Ipv4

namespace Ipv6
open Memar Net

/-- net/ipv6/const.go:25-26 `HeaderLen` -/
def headerLen : Nat := 40
/-- net/ipv6/packet.go:15-20 -/
def checkPacket (p : Bytes) : PacketCheck := if p.length < headerLen then .tooShort else .ok
/-- net/ipv6/packet.go:25 -/
def version (p : Bytes) : Option U8 := p[0]?.map fun (b : Byte) => b >>> 4
/-- net/ipv6/packet.go:26 -/
def trafficClass (p : Bytes) : Option U8 :=
  p[0]?.bind fun (a : Byte) => p[1]?.map fun (b : Byte) => (a <<< 4) ||| (b >>> 4)
/-- net/ipv6/packet.go:27 -/
def flowLabel (p : Bytes) : Option Bytes := (getArr p 1 3).bind fun fl => modAt fl 0 (· &&& 0x0f#8)
/-- net/ipv6/packet.go:28 -/
def payloadLength (p : Bytes) : Option U16 := get16 p 4
/-- net/ipv6/packet.go:29 -/
def nextHeader (p : Bytes) : Option U8 := p[6]?
/-- net/ipv6/packet.go:30 -/
def hopLimit (p : Bytes) : Option U8 := p[7]?
/-- net/ipv6/packet.go:31 -/
def sourceAddr (p : Bytes) : Option Bytes := getArr p 8 16
/-- net/ipv6/packet.go:32 -/
def destinationAddr (p : Bytes) : Option Bytes := getArr p 24 16
/-- net/ipv6/packet.go:33 -/
def payload (p : Bytes) : Option Bytes := sliceFrom p 40

/-- net/ipv6/packet.go:38 -/
def setVersion (p : Bytes) (v : U8) : Option Bytes := setAt p 0 (v <<< 4)
/-- net/ipv6/packet.go:39 -/
def setTrafficClass (p : Bytes) (tc : U8) : Option Bytes :=
  (modAt p 0 fun b => b ||| (tc >>> 4)).bind fun p => setAt p 1 (tc <<< 4)
/-- net/ipv6/packet.go:40; the label is an array of three bytes. -/
def setFlowLabel (p : Bytes) (a b c : Byte) : Option Bytes :=
  (modAt p 1 fun x => x ||| a).bind fun p => (setAt p 2 b).bind fun p => setAt p 3 c
/-- net/ipv6/packet.go:41 -/
def setPayloadLength (p : Bytes) (v : U16) : Option Bytes := put16 p 4 v
/-- net/ipv6/packet.go:42 -/
def setNextHeader (p : Bytes) (v : U8) : Option Bytes := setAt p 6 v
/-- net/ipv6/packet.go:43 -/
def setHopLimit (p : Bytes) (v : U8) : Option Bytes := setAt p 7 v
/-- net/ipv6/packet.go:44 -/
def setSourceAddr (p : Bytes) (a : Bytes) : Option Bytes := putArr p 8 a
/-- net/ipv6/packet.go:45 -/
def setDestinationAddr (p : Bytes) (a : Bytes) : Option Bytes := putArr p 24 a
/-- net/ipv6/packet.go:46 -/
def setPayload (p : Bytes) (d : Bytes) : Option Bytes := putArr p 40 d

end Ipv6

namespace Udp
open Memar Net

/-- net/udp/const.go:7 -/
def minPacketLen : Nat := 8
/-- net/udp/packet.go:30 -/
def sourcePort (p : Bytes) : Option U16 := get16 p 0
/-- net/udp/packet.go:31 -/
def destinationPort (p : Bytes) : Option U16 := get16 p 2
/-- net/udp/packet.go:32 -/
def length (p : Bytes) : Option U16 := get16 p 4
/-- net/udp/packet.go:33 -/
def checksum (p : Bytes) : Option U16 := get16 p 6
/-- net/udp/packet.go:34 -/
def payload (p : Bytes) : Option Bytes := sliceFrom p 8
/-- net/udp/packet.go:16-25 -/
def checkPacket (p : Bytes) : Option PacketCheck :=
  if p.length < minPacketLen then some .tooShort
  else (length p).map fun n => if p.length < n.toNat then .wrongLength else .ok
/-- net/udp/packet.go:39 -/
def setSourcePort (p : Bytes) (v : U16) : Option Bytes := put16 p 0 v
/-- net/udp/packet.go:40 -/
def setDestinationPort (p : Bytes) (v : U16) : Option Bytes := put16 p 2 v
/-- net/udp/packet.go:41 -/
def setLength (p : Bytes) (v : U16) : Option Bytes := put16 p 5 v
/-- net/udp/packet.go:42 -/
def setChecksum (p : Bytes) (v : U16) : Option Bytes := put16 p 6 v
/-- net/udp/packet.go:43 -/
def setPayload (p : Bytes) (d : Bytes) : Option Bytes := putArr p 8 d

end Udp

namespace Gp
open Memar Net

/-- net/gp/const.go:15 `FrameLen` (one byte of type and two addresses) -/
def frameLen : Nat := 33
/-- net/protocol/frame-type.go:14-22 `FrameType_GP` -/
def frameTypeGP : Byte := 4#8
/-- net/gp/frame.go:24 -/
def frameType (f : Bytes) : Option Byte := f[0]?
/-- net/gp/frame.go:13-21 -/
def checkFrame (f : Bytes) : Option PacketCheck :=
  if f.length ≠ frameLen then some .wrongLength
  else (frameType f).map fun t => if t ≠ frameTypeGP then .badType else .ok
/-- net/gp/frame.go:26 -/
def destinationAddr (f : Bytes) : Option Bytes := getArr f 1 16
/-- net/gp/frame.go:27 -/
def sourceAddr (f : Bytes) : Option Bytes := getArr f 17 16
/-- net/gp/frame.go:29 -/
def setFrameType (f : Bytes) (t : Byte) : Option Bytes := setAt f 0 t
/-- net/gp/frame.go:30 -/
def setDestinationAddr (f : Bytes) (a : Bytes) : Option Bytes := putArr f 1 a
/-- net/gp/frame.go:31 -/
def setSourceAddr (f : Bytes) (a : Bytes) : Option Bytes := putArr f 17 a
/-- net/gp/frame.go:35 -/
def nextFrame (f : Bytes) : Option Bytes := sliceFrom f frameLen

/-- net/gp/address.go:18 -/
def planetID (a : Bytes) : Option U16 := get16 a 0
/-- net/gp/address.go:19 -/
def societyID (a : Bytes) : Option U32 := get32 a 2
/-- net/gp/address.go:20 -/
def routerID (a : Bytes) : Option U32 := get32 a 6
/-- net/gp/address.go:21 -/
def userID (a : Bytes) : Option U32 := get32 a 10
/-- net/gp/address.go:22 -/
def appID (a : Bytes) : Option U16 := get16 a 14
/-- net/gp/address.go:24 -/
def setPlanetID (a : Bytes) (v : U16) : Option Bytes := put16 a 0 v
/-- net/gp/address.go:25 -/
def setSocietyID (a : Bytes) (v : U32) : Option Bytes := put32 a 2 v
/-- net/gp/address.go:26 -/
def setRouterID (a : Bytes) (v : U32) : Option Bytes := put32 a 6 v
/-- net/gp/address.go:27 -/
def setUserID (a : Bytes) (v : U32) : Option Bytes := put32 a 10 v
/-- net/gp/address.go:28 -/
def setAppID (a : Bytes) (v : U16) : Option Bytes := put16 a 14 v

end Gp
end Memar.Net
