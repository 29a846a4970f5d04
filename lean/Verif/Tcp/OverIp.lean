import Verif.Tcp.Model

/-!
# TCP segments that arrive over IP (`net/ipv4/tcp.go`, `net/ipv6/tcp.go`)

The table of streams is a Go map from the addresses and ports to a pointer. It is modelled as a function: no entry, an entry with a nil pointer, or
an entry with a stream. Addresses are lists of bytes; their lengths play no part. The table is a package variable, so what was stored in it before a
panic stays. The lookup of the application's service by the port is a parameter.
-/

namespace Memar.Tcp.OverIp
open Memar Net Net.Tcp Memar.Tcp

/-- net/ipv4/tcp.go:12-17 `ipv4SocketKey`, net/ipv6/tcp.go:14-19 `ipv6SocketKey` -/
structure Key where
  srcIP : Bytes
  srcPort : U16
  dstIP : Bytes
  dstPort : U16
deriving DecidableEq, Repr

/-- net/ipv4/tcp.go:10, net/ipv6/tcp.go:12 `tcpSockets` -/
abbrev Table := Key → Option (Option Stream)

def Table.empty : Table := fun _ => none
def Table.set (t : Table) (k : Key) (v : Option Stream) : Table := fun k' => if k' = k then some v else t k'

/-- What a call ends in. -/
inductive Res
  | panic
  | noService
  | ret (e : Err)
deriving DecidableEq, Repr

/-- `Receive` (net/tcp/stream.go:114-152) called on a nil pointer: the segment is checked first, then the status is read. -/
def receiveNil (seg : Bytes) : Res :=
  match checkSegment seg with
  | some .tooShort => .ret .tooShort
  | some .wrongLength => .ret .wrongLength
  | _ => .panic

/-- net/ipv4/tcp.go:32-41 and net/ipv4/tcp.go:43-47, net/ipv6/tcp.go:51-61 and net/ipv6/tcp.go:63-67: find the stream, or store what `newSocketOverIPv4` makes, a nil pointer, and
hand the segment to it. -/
def deliver (ins : InsertFn) (t : Table) (k : Key) (seg : Bytes) : Table × Res :=
  match t k with
  | some (some st) =>
    match receive ins st seg with
    | some (st', e) => (t.set k (some st'), .ret e)
    | none => (t, .panic)
  | _ => (t.set k none, receiveNil seg)

/-- net/ipv4/tcp.go:22-41 `ReceiveOverIPv4` -/
def receive4 (ins : InsertFn) (t : Table) (src dst seg : Bytes) : Table × Res :=
  match sourcePort seg, destinationPort seg with
  | some sp, some dp => deliver ins t ⟨src, sp, dst, dp⟩ seg
  | _, _ => (t, .panic)

/-- net/ipv6/tcp.go:24-61 `ReceiveTCPOverIPv6`; `service` tells whether the application has a service for the port. -/
def receive6 (service : U16 → Bool) (ins : InsertFn) (t : Table) (src dst seg : Bytes) : Table × Res :=
  match sourcePort seg, destinationPort seg with
  | some sp, some dp => if service dp = false then (t, .noService) else deliver ins t ⟨src, sp, dst, dp⟩ seg
  | _, _ => (t, .panic)

/-- Segments that arrive one after the other over IPv4, whatever comes of each: the source, the destination and the segment -/
def run4 (ins : InsertFn) (t : Table) : List (Bytes × Bytes × Bytes) → Table
  | [] => t
  | p :: ps => run4 ins (receive4 ins t p.1 p.2.1 p.2.2).1 ps

/-- The same over IPv6 -/
def run6 (service : U16 → Bool) (ins : InsertFn) (t : Table) : List (Bytes × Bytes × Bytes) → Table
  | [] => t
  | p :: ps => run6 service ins (receive6 service ins t p.1 p.2.1 p.2.2).1 ps

end Memar.Tcp.OverIp
