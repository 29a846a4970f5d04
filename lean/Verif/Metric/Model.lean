import Verif.Base

/-!
# Counters: net/metric/connection.go, net/metric/connections-metric.go

Every method is a list of atomic additions; the goroutines interleave between them.  A counter is the
64-bit word of the `atomic.Int64` or `atomic.Uint64`.
-/

namespace Memar.Metric
open Memar

/-! ## net/metric/connections-metric.go -/

/-- The counters, net/metric/connections-metric.go:13-25 -/
inductive CC where
  | opened | guest | inUse | idle | wait | closed | guestClosed | idleClosed | waitClosed | lifetimeClosed
deriving DecidableEq, Repr

/-- The methods, net/metric/connections-metric.go:40-77 -/
inductive CEvent where
  | connOpened | guestConnOpened | connIdled | connWaited | connClosed | guestConnClosed
  | idleConnClosed | waitConnClosed | lifetimeConnClosed
deriving DecidableEq, Repr

/-- An atomic addition. -/
abbrev Atom (κ : Type) := κ × BitVec 64

/-- net/metric/connections-metric.go:40-77, `ConnOpened` and `ConnClosed` inlined where they are called. -/
def CEvent.atoms : CEvent → List (Atom CC)
  | .connOpened => [(.opened, 1), (.inUse, 1)]
  | .guestConnOpened => [(.opened, 1), (.inUse, 1), (.guest, 1)]
  | .connIdled => [(.inUse, -1), (.idle, 1)]
  | .connWaited => [(.inUse, -1), (.wait, 1)]
  | .connClosed => [(.inUse, -1), (.closed, 1)]
  | .guestConnClosed => [(.inUse, -1), (.closed, 1), (.guestClosed, 1)]
  | .idleConnClosed => [(.closed, 1), (.idle, -1), (.idleClosed, 1)]
  | .waitConnClosed => [(.closed, 1), (.wait, -1), (.waitClosed, 1)]
  | .lifetimeConnClosed => [(.inUse, -1), (.closed, 1), (.lifetimeClosed, 1)]

/-! ## net/metric/connection.go -/

/-- The counters, net/metric/connection.go:15-28; `lastUsage` and `maxBandwidth`, `failedPacketsSent`,
`failedPacketsReceived`, `notRequestedPacketsReceived`, which no method changes, are left out. -/
inductive MC where
  | bytesSent | packetsSent | bytesReceived | packetsReceived | lostPackets | lostBytes
  | resendPackets | resendBytes | succeed | failed
deriving DecidableEq, Repr

/-- The methods, net/metric/connection.go:49-85, with the packet lengths. -/
inductive MEvent where
  | streamSucceed | streamFailed
  | packetReceived (n : BitVec 64) | duplicatePacketReceived (n : BitVec 64)
  | packetSent (n : BitVec 64) | packetResend (n : BitVec 64)
deriving DecidableEq, Repr

/-- net/metric/connection.go:49-85 -/
def MEvent.atoms : MEvent → List (Atom MC)
  | .streamSucceed => [(.succeed, 1)]
  | .streamFailed => [(.failed, 1)]
  | .packetReceived n => [(.packetsReceived, 1), (.bytesReceived, n)]
  | .duplicatePacketReceived n => [(.resendPackets, 1), (.resendBytes, n)]
  | .packetSent n => [(.packetsSent, 1), (.bytesSent, n)]
  | .packetResend n => [(.packetsSent, 1), (.bytesSent, n), (.lostPackets, 1), (.lostBytes, n)]

/-! ## Goroutines -/

/-- `atomic.Int64.Add` -/
def add {κ} [DecidableEq κ] (s : κ → BitVec 64) (a : Atom κ) : κ → BitVec 64 :=
  fun k => if k = a.1 then s k + a.2 else s k

/-- The counters, and for each goroutine the additions it still has to do. -/
structure Config (κ : Type) where
  counters : κ → BitVec 64
  todo : List (List (Atom κ))

/-- One goroutine does its next addition. -/
inductive Step {κ} [DecidableEq κ] : Config κ → Config κ → Prop where
  | go (s : κ → BitVec 64) (l r : List (List (Atom κ))) (a : Atom κ) (rest : List (Atom κ)) :
      Step ⟨s, l ++ (a :: rest) :: r⟩ ⟨add s a, l ++ rest :: r⟩

/-- Any number of steps, in any order. -/
inductive Steps {κ} [DecidableEq κ] : Config κ → Config κ → Prop where
  | refl (c) : Steps c c
  | tail {a b c} : Steps a b → Step b c → Steps a c

/-- New counters and goroutines that call the methods given by `threads`. -/
def start {κ ε : Type} (atoms : ε → List (Atom κ)) (threads : List (List ε)) : Config κ :=
  ⟨fun _ => 0, threads.map fun t => t.flatMap atoms⟩

/-- All goroutines are done. -/
def Config.Done {κ} (c : Config κ) : Prop := ∀ t ∈ c.todo, t = []

/-- One goroutine calls the methods one after the other. -/
def runSeq {κ ε : Type} [DecidableEq κ] (atoms : ε → List (Atom κ)) (h : List ε) : κ → BitVec 64 :=
  (h.flatMap atoms).foldl add fun _ => 0

end Memar.Metric
