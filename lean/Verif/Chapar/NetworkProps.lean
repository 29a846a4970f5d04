import Verif.Chapar.Network
import Verif.Chapar.Props

/-!
# Properties of switches and their ports (C138)
-/

namespace Memar.Chapar
open Memar

variable {P : Type}

theorem deliver_transit (net : Net P) (h : Byte) (hh' : h.toNat ≤ 252) (rest : Bytes) (ms : List Nat) :
    ∀ (fuel : Nat) (done : Bytes) (t : Byte) (todo : Bytes) (m : Nat), h.toNat = done.length + (todo.length + 1) →
      (transit h done (t :: todo) rest).length ≤ 258 → todo.length = ms.length → ms.length < fuel →
      (∀ (i : Nat) (a b : Nat) (p : Byte), (m :: ms)[i]? = some a → ms[i]? = some b → todo[i]? = some p → ((net a).ports p).mux = some b) →
      deliver net fuel (some m) (transit h done (t :: todo) rest) =
        some (.accepted ((m :: ms).getLast (by simp)) (done ++ (m :: ms).map fun a => (net a).number)
          ([frameTypeChapar, h, BitVec.ofNat 8 (h.toNat - 1)] ++ (done ++ (m :: ms).map fun a => (net a).number) ++ rest)) := by
  induction ms with
  | nil =>
    intro fuel done t todo m hh hl ht hf hw
    match fuel, hf with
    | fuel + 1, _ =>
      rw [deliver, receive_transit h done rest t todo _ hh hh' hl]
      cases todo with
      | nil =>
        simp only [List.length_nil] at hh
        simp [show h.toNat - 1 = done.length by omega]
      | cons t' todo => simp at ht
  | cons m' ms ih =>
    intro fuel done t todo m hh hl ht hf hw
    match fuel, hf with
    | fuel + 1, hf =>
      match todo, ht with
      | t' :: todo, ht =>
        rw [deliver, receive_transit h done rest t (t' :: todo) _ hh hh' hl]
        simp only []
        rw [hw 0 m m' t' rfl rfl rfl]
        simp only [List.length_cons] at ht hh hf
        rw [ih fuel (done ++ [(net m).number]) t' todo m' (by simp; omega) (by simp [transit] at hl ⊢; omega) (by omega) (by omega)
          (fun i a b p h1 h2 h3 => hw (i + 1) a b p (by simpa using h1) (by simpa using h2) (by simpa using h3))]
        simp

/-! ## C138 -/

/-- C267: where the ports call the next switches of a route, a frame for the route is accepted by the last switch of it and by no other. It arrives with
the port numbers of the switches it passed, in order, as its path, and with its payload as it was. Missing: ports that call their own switch, as all do
that the code itself makes, see below. -/
theorem C267_route_partial (net : Net P) (h : Byte) (route rest : Bytes) (hr : route.length = h.toNat) (h1 : 1 ≤ h.toNat) (hh : h.toNat ≤ 252)
    (hl : 3 + route.length + rest.length ≤ 258) (ms : List Nat) (hm : ms.length = route.length) (first last : Nat)
    (hf : ms.head? = some first) (hla : ms.getLast? = some last)
    (hw : ∀ (i : Nat) (a b : Nat) (p : Byte), ms[i]? = some a → ms[i + 1]? = some b → route[i + 1]? = some p → ((net a).ports p).mux = some b)
    (fuel : Nat) (hfu : ms.length ≤ fuel) :
    deliver net fuel (some first) ([3#8, h, 0#8] ++ route ++ rest) =
      some (.accepted last (ms.map fun a => (net a).number) ([3#8, h, h - 1#8] ++ (ms.map fun a => (net a).number) ++ rest)) := by
  match ms, route, hm with
  | [], [], _ => simp at hf
  | m :: ms, t :: todo, hm =>
    simp only [List.head?_cons, Option.some.injEq] at hf
    subst hf
    simp only [List.length_cons] at hr hm hl hfu
    have key := deliver_transit net h hh rest ms fuel [] t todo m (by simp; omega) (by simp [transit]; omega) (by omega) (by omega)
      (fun i a b p g1 g2 g3 => hw i a b p g1 (by simpa using g2) (by simpa using g3))
    rw [List.getLast?_eq_some_getLast (by simp), Option.some.injEq] at hla
    have e1 : BitVec.ofNat 8 (h.toNat - 1) = h - 1#8 := by
      apply BitVec.eq_of_toNat_eq
      have := h.isLt
      rw [BitVec.toNat_sub, BitVec.toNat_ofNat]; simp; omega
    rw [hla, e1] at key
    exact key

example := C267_route_partial (P := Nat) (fun m => ⟨BitVec.ofNat 8 (m + 1), fun _ => ⟨some (m + 1), some m⟩⟩) 3#8 [10#8, 20#8, 30#8]
  [99#8] rfl (by decide) (by decide) (by decide) [0, 1, 2] rfl 0 2 rfl rfl
  (fun i a b p ha hb _ => by
    rcases i with _ | _ | _ | i <;> simp at ha hb <;> simp [← ha, ← hb]) 3 (by decide)

/-- C267 violated: no frame ever leaves the switch it comes to. A switch passes a frame on by receiving it again at the port, and a port belongs to its
switch: so whatever path a frame has, the first switch it comes to takes all its hops itself and accepts it as its own. -/
theorem C267_never_leaves_violated (net : Net P) (m : Nat) (hp : ∀ p, ((net m).ports p).mux = some m) (h : Byte) (route rest : Bytes)
    (hr : route.length = h.toNat) (h1 : 1 ≤ h.toNat) (hh : h.toNat ≤ 252) (hl : 3 + route.length + rest.length ≤ 258) :
    deliver net 256 (some m) ([3#8, h, 0#8] ++ route ++ rest) =
      some (.accepted m (List.replicate h.toNat (net m).number) ([3#8, h, h - 1#8] ++ List.replicate h.toNat (net m).number ++ rest)) := by
  have key := C267_route_partial net h route rest hr h1 hh hl (List.replicate h.toNat m) (by simp [hr]) m m
    (by rw [List.head?_replicate, if_neg (by omega)]) (by rw [List.getLast?_replicate, if_neg (by omega)])
    (by
      intro i a b p g1 g2 _
      have ga := List.mem_of_getElem? g1
      have gb := List.mem_of_getElem? g2
      rw [List.eq_of_mem_replicate ga, List.eq_of_mem_replicate gb]
      exact hp p) 256 (by simp; omega)
  simpa using key

example := C267_never_leaves_violated (P := Nat) (fun m => ⟨7#8, fun p => ⟨some m, some p.toNat⟩⟩) 4 (fun _ => rfl) 3#8
  [10#8, 20#8, 30#8] [99#8] rfl (by decide) (by decide) (by decide)

theorem receive_other (net : Net P) (m : Nat) (h : Byte) (t p : Byte) (route rest : Bytes)
    (hr : route.length + 2 = h.toNat) (hh : h.toNat ≤ 252) (hl : 3 + (route.length + 2) + rest.length ≤ 258) :
    receive (net m).number ([3#8, h, 0#8] ++ (t :: p :: route) ++ rest) =
      some (.forwarded p (transit h [(net m).number] (p :: route) rest)) := by
  have := receive_transit h [] rest t (p :: route) (net m).number (by simp; omega) hh (by simp [transit]; omega)
  exact this

/-- C267 violated: a switch that has just been initialised panics on every frame that is to leave it by another port than the one of its own number. -/
theorem C267_fresh_violated (net : Net P) (m : Nat) (number : Byte) (c : P) (hm : net m = Mux.fresh m number c) (h t p : Byte) (route rest : Bytes)
    (hp : p ≠ number) (hr : route.length + 2 = h.toNat) (hh : h.toNat ≤ 252) (hl : 3 + (route.length + 2) + rest.length ≤ 258) (fuel : Nat) :
    deliver net (fuel + 2) (some m) ([3#8, h, 0#8] ++ (t :: p :: route) ++ rest) = some .panic := by
  rw [deliver, receive_other net m h t p route rest hr hh hl]
  simp only []
  have hn : ((net m).ports p).mux = none := by rw [hm]; simp [Mux.fresh, hp]
  rw [hn, deliver, check_transit _ _ _ _ (by simp) (by simp [transit]; omega)]

example := C267_fresh_violated (fun m => Mux.fresh m 7#8 m) 2 7#8 2 rfl 3#8 10#8 20#8 [30#8] [99#8] (by decide) rfl (by decide)
  (by decide) 5

/-- A frame of the greatest length, of three hops and with the hop number `n`. -/
def looping (n : Byte) : Bytes := [3#8, 3#8, n] ++ List.replicate 255 3#8

theorem looping_step : ∀ n : Byte, 4 ≤ n.toNat →
    receive 3#8 (looping n) = some (.forwarded (if n = 254#8 then 255#8 else 3#8) (looping (if n = 255#8 then 4#8 else n + 1#8))) := by
  have key : ∀ n : Fin 256, 4 ≤ n.val → receive 3#8 (looping (BitVec.ofFin n)) =
      some (.forwarded (if BitVec.ofFin n = 254#8 then 255#8 else 3#8) (looping (if BitVec.ofFin n = 255#8 then 4#8 else BitVec.ofFin n + 1#8))) := by
    decide +kernel
  intro n hn
  exact key n.toFin hn

/-- C267 violated: a frame that says it is at a hop behind its last one is never done with. A switch of port number 3 whose ports are its own receives
the frame again and again, however long it goes on. -/
theorem C267_endless_violated (net : Net P) (m : Nat) (h3 : (net m).number = 3#8) (hp : ∀ p, ((net m).ports p).mux = some m) (n : Byte)
    (hn : 4 ≤ n.toNat) : checkFrame (looping n) = some none ∧ ∀ fuel, deliver net fuel (some m) (looping n) = none := by
  have hlen : (looping n).length = 258 := by rw [looping, List.length_append, List.length_replicate]; rfl
  refine ⟨by rw [checkFrame, hlen]; rfl, fun fuel => ?_⟩
  clear hlen
  induction fuel generalizing n with
  | zero => rfl
  | succ fuel ih =>
    rw [deliver, h3, looping_step n hn]
    simp only [hp]
    refine ih _ ?_
    split
    · decide
    · rename_i hne
      have := n.isLt
      have h5 : n.toNat ≠ 255 := fun e => hne (BitVec.eq_of_toNat_eq (by simpa using e))
      rw [BitVec.toNat_add]; simp; omega

example := C267_endless_violated (P := Nat) (fun m => ⟨3#8, fun _ => ⟨some m, none⟩⟩) 1 rfl (fun _ => rfl) 4#8 (by decide)

/-- C138: a frame that is sent, and is no broadcast, goes out unchanged, once, through the connection of the port that the path names for the next
hop. -/
theorem C138_send (m : Mux P) (fuel : Nat) (h n : Byte) (tail : Bytes) (p : Byte) (c : P) (h0 : h ≠ 0#8) (hn : n.toNat ≤ 252)
    (hp : tail[n.toNat]? = some p) (hc : (m.ports p).phys = some c) :
    m.send fuel (3#8 :: h :: n :: tail) = some ([(c, 3#8 :: h :: n :: tail)], false) := by
  have e : (frameFixedLength + n).toNat = n.toNat + 3 := by
    rw [BitVec.toNat_add]; simp [frameFixedLength]; omega
  have e1 : isBroadcastFrame (3#8 :: h :: n :: tail) = some false := by simp [isBroadcastFrame, broadcastHopCount, h0]
  have e2 : nextPortNum (3#8 :: h :: n :: tail) = some p := by
    rw [nextPortNum, show nextHop (3#8 :: h :: n :: tail) = some n from rfl, Option.bind_some, e]
    simpa using hp
  simp [Mux.send, e1, e2, Port.send, hc]

example := C138_send ⟨1#8, fun p => ⟨none, some p.toNat⟩⟩ 0 3#8 1#8 [10#8, 20#8, 30#8, 99#8] 20#8 20 (by decide) (by decide) rfl rfl

/-- C267 violated: a switch that has just been initialised can send nothing but through the port of its own number: for any other it panics, and for
a broadcast too, after at most one port. -/
theorem C267_fresh_send_violated (self : Nat) (number : Byte) (c : P) (fuel : Nat) :
    (∀ (h n p : Byte) (tail : Bytes), h ≠ 0#8 → n.toNat ≤ 252 → tail[n.toNat]? = some p → p ≠ number →
      (Mux.fresh self number c).send fuel (3#8 :: h :: n :: tail) = some ([], true)) ∧
    (∀ (n : Byte) (tail : Bytes), (Mux.fresh self number c).send (fuel + 2) (3#8 :: 0#8 :: n :: tail) =
      some (if number = 0#8 then [(c, 3#8 :: 0#8 :: n :: tail)] else [], true)) := by
  constructor
  · intro h n p tail h0 hn hp hne
    have e : (frameFixedLength + n).toNat = n.toNat + 3 := by
      rw [BitVec.toNat_add]; simp [frameFixedLength]; omega
    have e1 : isBroadcastFrame (3#8 :: h :: n :: tail) = some false := by simp [isBroadcastFrame, broadcastHopCount, h0]
    have e2 : nextPortNum (3#8 :: h :: n :: tail) = some p := by
      rw [nextPortNum, show nextHop (3#8 :: h :: n :: tail) = some n from rfl, Option.bind_some, e]
      simpa using hp
    simp [Mux.send, e1, e2, Port.send, Mux.fresh, hne]
  · intro n tail
    have e1 : isBroadcastFrame (3#8 :: 0#8 :: n :: tail) = some true := by simp [isBroadcastFrame, broadcastHopCount]
    rw [Mux.send, e1]
    simp only []
    rw [Mux.sendBroadcast, if_pos (by decide)]
    by_cases h : number = 0#8
    · subst h
      simp [Mux.fresh, Port.send, Mux.sendBroadcast]
    · have : (0#8 : Byte) ≠ number := fun e => h e.symm
      simp [Mux.fresh, Port.send, this, h]

/-- C267: on a bridge a frame with a hop to spare takes one hop: its port number is recorded, the rest of the frame is as it was, and it goes on, out
through the connection or in to the switch. Missing: the last hop, see below. -/
theorem C267_bridge_partial (h : Byte) (done rest : Bytes) (t t' : Byte) (todo : Bytes) (port : Byte)
    (hh : h.toNat = done.length + (todo.length + 2)) (hh' : h.toNat ≤ 252) (hl : (transit h done (t :: t' :: todo) rest).length ≤ 258) :
    bridgeSend port (transit h done (t :: t' :: todo) rest) = some (some (transit h (done ++ [port]) (t' :: todo) rest)) ∧
    bridgeReceive port (transit h done (t :: t' :: todo) rest) = some (some (transit h (done ++ [port]) (t' :: todo) rest)) := by
  have key := receive_transit h done rest t (t' :: todo) port (by simp; omega) hh' hl
  rw [receive, check_transit _ _ _ _ (by simp) hl, Option.bind_some] at key
  simp only [] at key
  obtain ⟨r, hr, key⟩ := Option.bind_eq_some_iff.1 key
  split at key
  · obtain ⟨_, _, k⟩ := Option.map_eq_some_iff.1 key
    simp at k
  · rename_i hb
    obtain ⟨_, _, k⟩ := Option.bind_eq_some_iff.1 key
    split at k
    · simp at k
    · obtain ⟨_, _, k⟩ := Option.map_eq_some_iff.1 k
      simp only [Outcome.forwarded.injEq] at k
      simp only [bridgeSend, bridgeReceive, hr, Option.map_some, if_neg hb, k.2, and_self]

example := C267_bridge_partial 3#8 [1#8] [99#8] 20#8 30#8 [] 2#8 rfl (by decide) (by decide)

/-- C267: a frame that comes in by a bridge with a hop to spare goes through the switches named by the rest of its route and is accepted by the last of
them. It arrives with the number of the bridge's side and then those of the switches behind the hops it had taken before. Missing: a bridge at the last hop,
and ports that call their own switch, see below. -/
theorem C267_bridge_deliver_partial (net : Net P) (h : Byte) (done rest : Bytes) (t : Byte) (route : Bytes) (port : Byte)
    (hh : h.toNat = done.length + 1 + route.length) (hh' : h.toNat ≤ 252) (hl : 3 + h.toNat + rest.length ≤ 258)
    (ms : List Nat) (hm : ms.length = route.length) (first last : Nat) (hf : ms.head? = some first) (hla : ms.getLast? = some last)
    (hw : ∀ (i : Nat) (a b : Nat) (p : Byte), ms[i]? = some a → ms[i + 1]? = some b → route[i + 1]? = some p → ((net a).ports p).mux = some b)
    (fuel : Nat) (hfu : ms.length ≤ fuel) :
    bridgeDeliver net fuel port (some first) ([3#8, h, BitVec.ofNat 8 done.length] ++ done ++ t :: route ++ rest) =
      some (some (.accepted last (done ++ port :: ms.map fun a => (net a).number)
        ([3#8, h, h - 1#8] ++ (done ++ port :: ms.map fun a => (net a).number) ++ rest))) := by
  match ms, route, hm with
  | [], [], _ => simp at hf
  | m :: ms, t' :: todo, hm =>
    simp only [List.head?_cons, Option.some.injEq] at hf
    subst hf
    simp only [List.length_cons] at hh hm hl hfu
    have hb := (C267_bridge_partial h done rest t t' todo port (by omega) hh' (by simp [transit]; omega)).2
    have key := deliver_transit net h hh' rest ms fuel (done ++ [port]) t' todo m (by simp; omega) (by simp [transit]; omega) (by omega) (by omega)
      (fun i a b p g1 g2 g3 => hw i a b p g1 (by simpa using g2) (by simpa using g3))
    rw [List.getLast?_eq_some_getLast (by simp), Option.some.injEq] at hla
    have e1 : BitVec.ofNat 8 (h.toNat - 1) = h - 1#8 := by
      apply BitVec.eq_of_toNat_eq
      have := h.isLt
      rw [BitVec.toNat_sub, BitVec.toNat_ofNat]; simp; omega
    rw [hla, e1] at key
    have e2 : [3#8, h, BitVec.ofNat 8 done.length] ++ done ++ t :: t' :: todo ++ rest = transit h done (t :: t' :: todo) rest := by
      simp [transit, frameTypeChapar]
    rw [e2, bridgeDeliver, hb]
    simp only [key, Option.map_some, List.append_assoc, List.singleton_append, frameTypeChapar]

example := C267_bridge_deliver_partial (P := Nat) (fun m => ⟨BitVec.ofNat 8 (m + 1), fun _ => ⟨some (m + 1), some m⟩⟩) 3#8 [] [99#8] 10#8
  [20#8, 30#8] 7#8 rfl (by decide) (by decide) [0, 1] rfl 0 1 rfl rfl
  (fun i a b p ha hb _ => by
    rcases i with _ | _ | i <;> simp at ha hb <;> simp [← ha, ← hb]) 3 (by decide)

/-- C267 violated: a bridge at the last hop drops the frame, in either direction, and reports no error: the frame is neither sent nor given to the
switch. -/
theorem C267_bridge_last_violated (net : Net P) (fuel : Nat) (mux : Option Nat) (h : Byte) (done rest : Bytes) (t : Byte) (port : Byte)
    (hh : h.toNat = done.length + 1) (hh' : h.toNat ≤ 252) (hl : (transit h done [t] rest).length ≤ 258) :
    bridgeSend port (transit h done [t] rest) = some none ∧ bridgeDeliver net fuel port mux (transit h done [t] rest) = some none := by
  have key := receive_transit h done rest t [] port (by simp; omega) hh' hl
  rw [receive, check_transit _ _ _ _ (by simp) hl, Option.bind_some] at key
  simp only [] at key
  obtain ⟨r, hr, key⟩ := Option.bind_eq_some_iff.1 key
  split at key
  · rename_i hb
    simp [bridgeDeliver, bridgeSend, bridgeReceive, hr, hb]
  · obtain ⟨_, _, k⟩ := Option.bind_eq_some_iff.1 key
    split at k
    · simp at k
    · obtain ⟨_, _, k⟩ := Option.map_eq_some_iff.1 k
      simp at k

/-! ## Examples -/

/-- Three switches, each with port 20 or 30 to the next. -/
def chain : Net Nat := fun m => ⟨BitVec.ofNat 8 (m + 1), fun p => if p = 20#8 ∧ m = 0 then ⟨some 1, none⟩ else if p = 30#8 ∧ m = 1 then ⟨some 2, none⟩ else ⟨none, none⟩⟩
example : deliver chain 3 (some 0) [3, 3, 0, 10, 20, 30, 99] = some (.accepted 2 [1, 2, 3] [3, 3, 2, 1, 2, 3, 99]) := by decide
/-- A switch with ports of its own. -/
def own : Net Nat := fun m => ⟨7#8, fun p => ⟨some m, some p.toNat⟩⟩
example : deliver own 9 (some 0) [3, 3, 0, 10, 20, 30, 99] = some (.accepted 0 [7, 7, 7] [3, 3, 2, 7, 7, 7, 99]) := by decide
example : (own 0).send 0 [3, 3, 0, 10, 20, 30, 99] = some ([(10, [3, 3, 0, 10, 20, 30, 99])], false) := by decide

end Memar.Chapar
