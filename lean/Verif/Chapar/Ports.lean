import Verif.Chapar.NetworkProps

/-!
# Ports that are taken away, texts of paths, and the length of a frame before it is made (C296, C297)

net/chapar/mux.go:131-137, net/chapar/path.go:51-58, net/chapar/frame.go:90, net/gp/address.go:31-38.
-/

namespace Memar.Chapar
open Memar

variable {P : Type}

/-- net/chapar/mux.go:135-137 `removePort`: the body is a comment. -/
def Mux.remove (m : Mux P) (_i : Byte) : Mux P := m

/-- net/chapar/mux.go:131-133 `unRegisterPort` of a port of number `i`. -/
def Mux.unRegister (m : Mux P) (i : Byte) : Mux P := m.remove i

/-- net/chapar/frame.go:90 `StaticFrameLen`: the sum is of bytes. -/
def staticFrameLen (pathLen : Byte) : Nat := (frameFixedLength + pathLen).toNat

/-- net/chapar/path.go:51-54 `ToString` -/
def Path.toText (p : Path) : Option Bytes := sliceTo p.path p.len.toNat

/-- net/chapar/path.go:55-58 `FromString`: the path afterwards, and whether an error is returned; the body is a comment. -/
def Path.fromText (p : Path) (_s : Bytes) : Path × Bool := (p, false)

/-- **C296 violated**: a port that was taken away is used as before: a frame whose next hop is this port goes out through its connection, and one
that a switch hands on by this port reaches the switch behind it, whatever the switch, the port and the frame. -/
theorem C296_still_used_violated (m : Mux P) (i : Byte) (c : P) (next : Option Nat) (h n : Byte) (tail : Bytes) (h0 : h ≠ 0#8) (hn : n.toNat ≤ 252)
    (hp : tail[n.toNat]? = some i) (fuel : Nat) :
    ((m.register i ⟨next, some c⟩).unRegister i).send fuel (3#8 :: h :: n :: tail) = some ([(c, 3#8 :: h :: n :: tail)], false) ∧
    (((m.register i ⟨next, some c⟩).unRegister i).ports i).mux = next := by
  refine ⟨?_, ?_⟩
  · exact C138_send _ fuel h n tail i c h0 hn hp (by simp [Mux.unRegister, Mux.remove, Mux.register])
  · simp [Mux.unRegister, Mux.remove, Mux.register]

example := C296_still_used_violated (⟨1#8, fun _ => ⟨none, none⟩⟩ : Mux Nat) 20#8 7 (some 4) 3#8 1#8 [10#8, 20#8, 30#8, 99#8] (by decide) (by decide) rfl 0

/-- **C296 violated**: a frame with hops left that comes in after the port was taken away is still delivered to the switch behind it. -/
theorem C296_still_delivers_violated (net : Net P) (a b : Nat) (i : Byte) (m0 : Mux P) (c : Option P)
    (ha : net a = (m0.register i ⟨some b, c⟩).unRegister i) (h : Byte) (t : Byte) (rest : Bytes) (hh : h.toNat = 2)
    (hl : rest.length ≤ 253) (fuel : Nat) :
    deliver net (fuel + 2) (some a) (transit h [] [t, i] rest) =
      some (.accepted b [(net a).number, (net b).number] ([3#8, h, 1#8, (net a).number, (net b).number] ++ rest)) := by
  have := deliver_transit net h (by omega) rest [b] (fuel + 2) [] t [i] a (by simpa using hh)
    (by simp [transit]; omega) rfl (by simp)
    (by
      intro k x y p hx hy hp
      match k with
      | 0 =>
        simp at hx hy hp
        subst hx; subst hy; subst hp
        rw [ha]; simp [Mux.unRegister, Mux.remove, Mux.register]
      | k + 1 => simp at hy)
  rw [this]
  simp [hh, frameTypeChapar]

example := C296_still_delivers_violated
  (fun k => if k = 0 then ((⟨9#8, fun _ => ⟨none, none⟩⟩ : Mux Nat).register 20#8 ⟨some 1, none⟩).unRegister 20#8 else ⟨5#8, fun _ => ⟨none, none⟩⟩) 0 1 20#8
  ⟨9#8, fun _ => ⟨none, none⟩⟩ none rfl 2#8 10#8 [77#8] rfl (by decide) 0

/-- **C296** the part that holds: registering another port under the number is what ends the use of the old one: a frame for that number goes out
through the connection of the new port and nothing else is sent, and the ports of the other numbers are as they were. Missing: taking a port away without another
in its place (refuted: `C296_still_used_violated`). -/
theorem C296_replaced_partial (m : Mux P) (i : Byte) (old new : Port P) (c : P) (hc : new.phys = some c) (h n : Byte) (tail : Bytes) (h0 : h ≠ 0#8)
    (hn : n.toNat ≤ 252) (hp : tail[n.toNat]? = some i) (fuel : Nat) :
    ((m.register i old).register i new).send fuel (3#8 :: h :: n :: tail) = some ([(c, 3#8 :: h :: n :: tail)], false) ∧
    ∀ j, j ≠ i → ((m.register i old).register i new).ports j = m.ports j := by
  refine ⟨C138_send _ fuel h n tail i c h0 hn hp (by simpa [Mux.register] using hc), ?_⟩
  intro j hj
  simp [Mux.register, hj]

example := C296_replaced_partial (⟨1#8, fun _ => ⟨none, none⟩⟩ : Mux Nat) 20#8 ⟨none, some 7⟩ ⟨none, some 8⟩ 8 rfl 3#8 1#8
  [10#8, 20#8, 30#8, 99#8] (by decide) (by decide) rfl 0

/-- **C296 violated**: putting an empty port in its place instead makes the next frame for that number panic. -/
theorem C296_emptied_violated (m : Mux P) (i : Byte) (old : Port P) (next : Option Nat) (h n : Byte) (tail : Bytes) (h0 : h ≠ 0#8)
    (hn : n.toNat ≤ 252) (hp : tail[n.toNat]? = some i) (fuel : Nat) :
    ((m.register i old).register i ⟨next, none⟩).send fuel (3#8 :: h :: n :: tail) = some ([], true) := by
  have e : (frameFixedLength + n).toNat = n.toNat + 3 := by
    rw [BitVec.toNat_add]; simp [frameFixedLength]; omega
  have e1 : isBroadcastFrame (3#8 :: h :: n :: tail) = some false := by simp [isBroadcastFrame, broadcastHopCount, h0]
  have e2 : nextPortNum (3#8 :: h :: n :: tail) = some i := by
    rw [nextPortNum, show nextHop (3#8 :: h :: n :: tail) = some n from rfl, Option.bind_some, e]
    simpa using hp
  simp [Mux.send, e1, e2, Port.send, Mux.register]

example := C296_emptied_violated (⟨1#8, fun _ => ⟨none, none⟩⟩ : Mux Nat) 20#8 ⟨none, some 7⟩ none 3#8 1#8
  [10#8, 20#8, 30#8, 99#8] (by decide) (by decide) rfl 0

/-- **C138**: the length announced for a frame of a path of up to 252 hops is the length of its header, and is what the frame says once it is made;
for a longer path it is too short by 256. -/
theorem C138_static_length (n : Byte) (f : Bytes) (hf : hopCount f = some n) :
    frameLen f = some (staticFrameLen n) ∧
    (n.toNat ≤ 252 → staticFrameLen n = 3 + n.toNat) ∧
    (252 < n.toNat → staticFrameLen n + 256 = 3 + n.toNat) := by
  have := n.isLt
  refine ⟨?_, ?_, ?_⟩
  · simp [frameLen, hf, staticFrameLen]
  · intro h
    simp only [staticFrameLen, frameFixedLength, BitVec.toNat_add, BitVec.toNat_ofNat]; omega
  · intro h
    simp only [staticFrameLen, frameFixedLength, BitVec.toNat_add, BitVec.toNat_ofNat]; omega

example := C138_static_length 4#8 [3#8, 4#8, 0#8, 1#8, 2#8, 3#8, 4#8] rfl

/-- **C297 violated**: reading the text of a path does nothing and reports no error: whatever path is written and whatever path is to take the text,
the one that was there stays. -/
theorem C297_path_violated (p q : Path) (hq : q ≠ p) (text : Bytes) (_hp : p.toText = some text) :
    (q.fromText text).2 = false ∧ (q.fromText text).1 = q ∧ (q.fromText text).1 ≠ p := ⟨rfl, rfl, hq⟩

example := C297_path_violated ((⟨List.replicate 255 0#8, 0#8⟩ : Path).set [1#8, 2#8]) ⟨List.replicate 255 0#8, 0#8⟩ (by decide +kernel) [1#8, 2#8] (by decide +kernel)

/-- **C297** the part that holds: the text of a path that was set is the path, so two paths with the same text are the same hops. Missing: reading it
(refuted: `C297_path_violated`). -/
theorem C297_path_text_partial (p q : Path) (hp : p.Ok) (hq : q.Ok) (a b : Bytes) (ha : a.length ≤ 255) (hb : b.length ≤ 255) :
    (p.set a).toText = some a ∧ ((p.set a).toText = (q.set b).toText ↔ a = b) := by
  have key : ∀ (r : Path) (s : Bytes), r.Ok → s.length ≤ 255 → (r.set s).toText = some s := by
    intro r s hr hs
    unfold Path.Ok at hr
    have e : (BitVec.ofNat 8 s.length).toNat = s.length := by simp; omega
    unfold Path.toText Path.set
    simp only [e, sliceTo, goCopy, hr]
    simp [slice, hr, Nat.min_eq_left hs, List.take_of_length_le hs]
  refine ⟨key p a hp ha, ?_⟩
  rw [key p a hp ha, key q b hq hb]
  simp

example := C297_path_text_partial ⟨List.replicate 255 0#8, 0#8⟩ ⟨List.replicate 255 9#8, 4#8⟩ (by unfold Path.Ok; decide +kernel) (by unfold Path.Ok; decide +kernel)
  [1#8, 2#8] [1#8, 3#8] (by decide) (by decide)

end Memar.Chapar

namespace Memar.Net.Gp
open Memar

/-- net/gp/address.go:31-34 `ToString` of an address of 16 bytes -/
def addrToText (a : Bytes) : Bytes := a

/-- net/gp/address.go:35-38 `FromString`: the address afterwards, and whether an error is returned; the body is a comment. -/
def addrFromText (a _s : Bytes) : Bytes × Bool := (a, false)

/-- **C297 violated**: reading the text of an address of the GP network does nothing and reports no error: the address that was there stays. The text
is the sixteen bytes themselves. -/
theorem C297_gp_violated (a b : Bytes) (hab : b ≠ a) :
    (addrFromText b (addrToText a)).2 = false ∧ (addrFromText b (addrToText a)).1 = b ∧ (addrFromText b (addrToText a)).1 ≠ a ∧
    addrToText a = a := ⟨rfl, rfl, hab, rfl⟩

example := C297_gp_violated (List.replicate 16 0xff#8) (List.replicate 16 0#8) (by decide)

end Memar.Net.Gp
