import Verif.Chapar.Model

/-!
# Switches and their ports: net/chapar/mux.go, port.go, port-bridge.go

Switches are numbered; a port knows the switch it calls (`mux`) and the physical connection it sends through. A nil pointer is `none`. Physical
connections are values of a type `P`.
-/

namespace Memar.Chapar
open Memar

/-- net/chapar/port.go:9-13; the number of a port is its place in the table. -/
structure Port (P : Type) where
  mux : Option Nat
  phys : Option P
deriving DecidableEq, Repr

/-- net/chapar/mux.go:14-21; for the connections see `Verif.Chapar.LastHop`. -/
structure Mux (P : Type) where
  number : Byte
  ports : Byte → Port P

/-- All switches. -/
abbrev Net (P : Type) := Nat → Mux P

/-- net/chapar/mux.go:32-44 the switch `self` after `Init` (after the 256th iteration of its loop, see `initLoop`): the port of its own number calls
the switch, the other ports are as they were made. -/
def Mux.fresh {P : Type} (self : Nat) (number : Byte) (phys : P) : Mux P :=
  ⟨number, fun i => if i = number then ⟨some self, some phys⟩ else ⟨none, none⟩⟩

/-- net/chapar/mux.go:126-129 `registerPort` for a port of number `i`. -/
def Mux.register {P : Type} (m : Mux P) (i : Byte) (p : Port P) : Mux P := { m with ports := fun j => if j = i then p else m.ports j }

/-- What becomes of a frame that a switch receives. -/
inductive Fate
  /-- refused with an error -/
  | refused (e : Err)
  /-- accepted by this switch, with this path -/
  | accepted (mux : Nat) (path frame : Bytes)
  /-- this switch broadcasts it -/
  | broadcast (mux : Nat) (frame : Bytes)
  /-- a panic -/
  | panic
deriving DecidableEq, Repr

/-- net/chapar/mux.go:83-122 `Receive` with net/chapar/port.go:30-33 `port.Receive`, which calls `Receive` of the switch of the port; `none` if this has
not ended after `fuel` calls. A nil switch checks the frame and then panics. -/
def deliver {P : Type} (net : Net P) : Nat → Option Nat → Bytes → Option Fate
  | 0, _, _ => none
  | _ + 1, none, f =>
    match checkFrame f with
    | some (some e) => some (.refused e)
    | _ => some .panic
  | fuel + 1, some m, f =>
    match receive (net m).number f with
    | none => some .panic
    | some (.refused e) => some (.refused e)
    | some (.accepted p f) => some (.accepted m p f)
    | some (.broadcast f) => some (.broadcast m f)
    | some (.forwarded out f) => deliver net fuel ((net m).ports out).mux f

/-- net/chapar/port.go:24-27 `port.Send`: what is sent, `none` for a panic of a nil connection. -/
def Port.send {P : Type} (p : Port P) (frame : Bytes) : Option (P × Bytes) := p.phys.map fun c => (c, frame)

/-- net/chapar/mux.go:73-80 `sendBroadcast`: what is sent, and whether it ends by a panic; `none` if it has not ended after `fuel` iterations. -/
def Mux.sendBroadcast {P : Type} (m : Mux P) (frame : Bytes) : Nat → Byte → List (P × Bytes) → Option (List (P × Bytes) × Bool)
  | 0, _, _ => none
  | fuel + 1, i, out =>
    if i ≤ 255#8 then
      match (m.ports i).send frame with
      | some x => m.sendBroadcast frame fuel (i + 1#8) (out ++ [x])
      | none => some (out, true)
    else some (out, false)

/-- net/chapar/mux.go:53-70 `Send`: what is sent, and whether it ends by a panic. -/
def Mux.send {P : Type} (m : Mux P) (fuel : Nat) (frame : Bytes) : Option (List (P × Bytes) × Bool) :=
  match isBroadcastFrame frame with
  | none => some ([], true)
  | some true => m.sendBroadcast frame fuel 0#8 []
  | some false =>
    match (nextPortNum frame).bind fun (n : Byte) => (m.ports n).send frame with
    | some x => some ([x], false)
    | none => some ([], true)

/-- net/chapar/port-bridge.go:35-43 `BridgePort.Send`: the frame sent on through the physical connection, if any; the outer `none` is a panic. The
error is nil when nothing is sent. -/
def bridgeSend (portNumber : Byte) (frame : Bytes) : Option (Option Bytes) :=
  (incrementNextHop frame portNumber).map fun r => if r.1 then none else some r.2

/-- net/chapar/port-bridge.go:45-53 `BridgePort.Receive`: the frame given to the switch, if any; the outer `none` is a panic. The error of the switch is
dropped. -/
def bridgeReceive (sidePortNumber : Byte) (frame : Bytes) : Option (Option Bytes) :=
  (incrementNextHop frame sidePortNumber).map fun r => if r.1 then none else some r.2

/-- net/chapar/port-bridge.go:45-53 what becomes of a frame that a bridge receives for the switch `mux`: `none` inside if it is dropped. -/
def bridgeDeliver {P : Type} (net : Net P) (fuel : Nat) (sidePortNumber : Byte) (mux : Option Nat) (frame : Bytes) : Option (Option Fate) :=
  match bridgeReceive sidePortNumber frame with
  | none => some (some .panic)
  | some none => some none
  | some (some f) => (deliver net fuel mux f).map some

end Memar.Chapar
