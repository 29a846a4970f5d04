import Verif.Net.IpModel
import Verif.Net.Field
import Verif.Chapar.Network

/-!
# C158: what becomes of a GP frame, and sending over connections of GP and Chapar

The table of connections is a parameter: looking up an address gives a connection or none, and an error or none.  `none` of an
`Option` around an answer is a panic.
-/

namespace Memar.Net.Gp
open Memar Net

/-- `Connections.GetConnectionByPeerAddr` of net/gp/protocol.go:10. -/
abbrev Lookup (C ε : Type) := Bytes → Option C × Option ε

/-- net/gp/frame.go:36-59 `Process`: the addresses looked up, and the error; `conns` is the package variable of net/gp/init.go:11.
The lines 47-49 and 52-56 are comments. -/
def process {C ε : Type} (conns : Option (Lookup C ε)) (f : Bytes) : Option (List Bytes × Option ε) :=
  (sourceAddr f).bind fun (a : Bytes) => conns.map fun (look : Lookup C ε) =>
    match look a with
    | (none, some e) => ([a], some e)
    | (_, err) => ([a], err)

/-- net/gp/init.go:14-22 `Init`: the package variable afterwards; the error is nil. -/
def init {C ε : Type} (conns : Option (Lookup C ε)) (cs : Lookup C ε) : Option (Lookup C ε) :=
  match conns with
  | some c => some c
  | none => some cs

/-- net/gp/connection.go:10-13 -/
structure Connection where
  localAddr : Bytes
  remoteAddr : Bytes
deriving DecidableEq, Repr

/-- net/gp/connection.go:16-20 `Init` -/
def Connection.init (_ : Connection) (l r : Bytes) : Connection := ⟨l, r⟩

/-- net/gp/connection.go:35-38 `WriteFrame`: the packet afterwards and the count. -/
def Connection.writeFrame (_ : Connection) (packet : Bytes) : Bytes × Nat := (packet, 0)

end Memar.Net.Gp

namespace Memar.Chapar
open Memar

/-- net/chapar/connection.go:68-78 `Send` and net/chapar/connection.go:80-90 `ReSend` of a connection whose port is `p`: what goes out,
`none` for a panic. -/
def connSend {P : Type} (p : Port P) (frame : Bytes) : Option (P × Bytes) := p.send frame
def connReSend {P : Type} (p : Port P) (frame : Bytes) : Option (P × Bytes) := p.send frame

end Memar.Chapar

namespace Memar.Net.Gp
open Memar Net

theorem sourceAddr_eq (f : Bytes) : sourceAddr f = if 17 ≤ f.length then some (goCopy (List.replicate 16 0#8) (f.drop 17)) else none := by
  unfold sourceAddr getArr sliceFrom
  split <;> rfl

/-- **C270** (partial: the lookup only): a frame that is as long as a frame has to be is looked up once, under its source address, and
the caller gets the error of the table.
Missing: the type, the payload, shorter frames and writing (refuted: `C270_bad_type_violated`, `C270_payload_violated`, `C270_panic_violated`, `C270_write_violated`). -/
theorem C270_lookup_partial {C ε : Type} (look : Lookup C ε) (f : Bytes) (h : f.length = 33) :
    process (some look) f = some ([(f.drop 17).take 16], (look ((f.drop 17).take 16)).2) := by
  have hs : sourceAddr f = some ((f.drop 17).take 16) := by
    rw [sourceAddr_eq, if_pos (by omega), goCopy]
    simp [h, List.take_of_length_le]
  rw [process, hs, Option.bind_some, Option.map_some]
  rcases look ((f.drop 17).take 16) with ⟨c, e⟩
  cases c <;> cases e <;> rfl

example := C270_lookup_partial (C := Nat) (ε := Nat) (fun _ => (none, some 2)) (List.replicate 33 7#8) (by decide)

/-- **C270** violated for what a frame carries: whatever stands behind or in front of the source address, and whether or not the peer
has a connection, the same is done: nothing more than the lookup. So the payload reaches nobody. -/
theorem C270_payload_violated {C ε : Type} (look : Lookup C ε) (f g : Bytes) (hf : 33 ≤ f.length) (hg : 33 ≤ g.length)
    (h : (f.drop 17).take 16 = (g.drop 17).take 16) :
    process (some look) f = process (some look) g ∧ ∃ e, process (some look) f = some ([(f.drop 17).take 16], e) := by
  have hs : ∀ x : Bytes, 33 ≤ x.length → sourceAddr x = some ((x.drop 17).take 16) := by
    intro x hx
    rw [sourceAddr_eq, if_pos (by omega), goCopy]
    simp
    omega
  refine ⟨by rw [process, process, hs f hf, hs g hg, h], ?_⟩
  rw [process, hs f hf, Option.bind_some, Option.map_some]
  rcases look ((f.drop 17).take 16) with ⟨c, e⟩
  cases c <;> cases e <;> exact ⟨_, rfl⟩

example := C270_payload_violated (C := Nat) (ε := Nat) (fun _ => (none, some 2)) (List.replicate 33 7#8) (List.replicate 40 7#8) (by decide)
  (by decide) (by decide)

/-- **C270** violated for bad frames: a frame of another type is processed as if it were a GP frame, although the check of the frame
refuses it. -/
theorem C270_bad_type_violated {C ε : Type} (look : Lookup C ε) (t : Byte) (rest : Bytes) (h : rest.length = 32) (ht : t ≠ 4#8) :
    checkFrame (t :: rest) = some .badType ∧
      process (some look) (t :: rest) = process (some look) (4#8 :: rest) ∧ process (some look) (t :: rest) ≠ none := by
  have e : ∀ b : Byte, process (some look) (b :: rest) = some ([((b :: rest).drop 17).take 16], (look (((b :: rest).drop 17).take 16)).2) :=
    fun b => C270_lookup_partial look (b :: rest) (by simp [h])
  refine ⟨?_, ?_, ?_⟩
  · unfold checkFrame frameType frameLen frameTypeGP
    rw [if_neg (by simp [h])]
    simp [ht]
  · rw [e, e]; rfl
  · rw [e]; simp

example := C270_bad_type_violated (C := Nat) (ε := Nat) (fun _ => (none, some 2)) 9 (List.replicate 32 7#8) (by decide) (by decide)

/-- **C270** violated for short frames, and without a table: the call panics, for every frame of fewer than 17 bytes, and for every
frame as long as the package was not initialized. -/
theorem C270_panic_violated {C ε : Type} (conns : Option (Lookup C ε)) (f : Bytes) :
    (f.length < 17 → process conns f = none) ∧ process (none : Option (Lookup C ε)) f = none := by
  refine ⟨fun h => ?_, ?_⟩
  · rw [process, sourceAddr_eq, if_neg (by omega)]; rfl
  · rw [process]; cases sourceAddr f <;> rfl

/-- **C158**: the table given first is the one that is used, however often the package is initialized again. -/
theorem C158_init {C ε : Type} (cs : Lookup C ε) (more : List (Lookup C ε)) : more.foldl init (init none cs) = some cs := by
  show more.foldl init (some cs) = some cs
  induction more with
  | nil => rfl
  | cons c t ih => exact ih

/-- **C270** violated for writing: the header of a frame is not written by a connection, which says that it takes no byte. -/
theorem C270_write_violated (c : Connection) (packet : Bytes) : c.writeFrame packet = (packet, 0) ∧ 0 ≠ frameLen := ⟨rfl, by decide⟩

/-- **C158**: a connection of the link layer sends a frame through its port, unchanged, the first time and again. -/
theorem C158_link_send {P : Type} (p : Chapar.Port P) (c : P) (frame : Bytes) (h : p.phys = some c) :
    Chapar.connSend p frame = some (c, frame) ∧ Chapar.connReSend p frame = some (c, frame) := by
  unfold Chapar.connSend Chapar.connReSend Chapar.Port.send
  rw [h]
  exact ⟨rfl, rfl⟩

example : process (some fun a => if a = List.replicate 16 7#8 then (some 1, none) else (none, some 2))
    (4#8 :: (List.replicate 16 1#8 ++ List.replicate 16 7#8)) = some ([List.replicate 16 7#8], (none : Option Nat)) ∧
    process (some fun a => if a = List.replicate 16 7#8 then (some 1, none) else (none, some 2))
    (4#8 :: (List.replicate 16 1#8 ++ List.replicate 16 8#8)) = some ([List.replicate 16 8#8], some 2) := by decide

end Memar.Net.Gp
