import Verif.Chapar.Props

/-!
# The last hop of a Chapar frame: the connections of a switch, C289

The table of connections is an interface (net/chapar/protocol.go:9-16) without an implementation in the repository: it is a parameter, with a law that
says what its names promise.
-/

namespace Memar.Chapar
open Memar

/-- net/chapar/protocol.go:9-16 `GetConnectionByPath` and `RegisterConnection` on tables of type `T`; their errors are dropped by the caller. -/
structure Table (T : Type) where
  get : T → Bytes → Option Connection
  register : T → Connection → T

/-- Specification: a table gives by a path the connection that was first registered with this path from the peer. -/
def Table.Lawful {T : Type} (tb : Table T) : Prop :=
  ∀ t c p, tb.get (tb.register t c) p =
    match tb.get t p with
    | some c' => some c'
    | none => if c.pathFromPeer.get = some p then some c else none

/-- `var newConn Connection` (net/chapar/mux.go:102): both paths are zero. -/
def Connection.zero : Connection := ⟨⟨List.replicate 255 0#8, 0#8⟩, ⟨List.replicate 255 0#8, 0#8⟩, []⟩

/-- net/chapar/mux.go:97-110, the last hop of a frame `f` that came by the path `p`: the table, the connection and whether it is new; `none` is a panic. The
connection is not used further (line 112). -/
def Table.lastHop {T : Type} (tb : Table T) (t : T) (p f : Bytes) : Option (T × Connection × Bool) :=
  match tb.get t p with
  | some c => some (t, c, false)
  | none => (Connection.zero.init f).map fun c => (tb.register t c, c, true)

/-- net/chapar/mux.go:83-122 `Receive` with the connections, on the switch whose port number is `port`: what is done with the frame, and
at the last hop the connection and whether it is new. -/
def Table.receive {T : Type} (tb : Table T) (port : Byte) (t : T) (f : Bytes) : Option (T × Outcome × Option (Connection × Bool)) :=
  (Chapar.receive port f).bind fun o =>
    match o with
    | .accepted p f' => (tb.lastHop t p f').map fun r => (r.1, .accepted p f', some r.2)
    | o => some (t, o, none)

/-- A switch that receives these frames, one after the other: the table and the connections of the frames. -/
def Table.serve {T : Type} (tb : Table T) (port : Byte) : T → List Bytes → Option (T × List (Option (Connection × Bool)))
  | t, [] => some (t, [])
  | t, f :: fs => (tb.receive port t f).bind fun r => (tb.serve port r.1 fs).map fun q => (q.1, r.2.2 :: q.2)

/-- The reference table: the connections in the order of their registration. -/
def listTable : Table (List Connection) :=
  ⟨fun t p => t.find? fun c => c.pathFromPeer.get == some p, fun t c => t ++ [c]⟩

/-! ## Properties -/

theorem listTable_lawful : listTable.Lawful := by
  intro t c p
  simp only [listTable, List.find?_append]
  cases h : t.find? (fun c => c.pathFromPeer.get == some p) with
  | some c' => rfl
  | none =>
    simp only [Option.none_or, List.find?_cons, List.find?_nil]
    by_cases e : c.pathFromPeer.get = some p
    · simp [e]
    · rw [if_neg e, beq_eq_false_iff_ne.mpr e]

private theorem zero_ok : Connection.zero.pathFromPeer.Ok ∧ Connection.zero.pathToPeer.Ok := by
  constructor <;> exact List.length_replicate

/-- An accepted frame is at least as long as its path and the three bytes before it, and at least four bytes. -/
theorem accepted_length (port : Byte) (f p f' : Bytes) (h : Chapar.receive port f = some (.accepted p f')) :
    p.length + 3 ≤ f'.length ∧ f'.length = f.length ∧ 4 ≤ f.length ∧ f.length ≤ 258 := by
  unfold Chapar.receive at h
  cases hc : checkFrame f with
  | none => rw [hc] at h; cases h
  | some e =>
  rw [hc, Option.bind_some] at h
  cases e with
  | some e => cases h
  | none =>
  dsimp only at h
  have hlen : 4 ≤ f.length ∧ f.length ≤ 258 := by
    unfold checkFrame minFrameLen maxFrameLen at hc
    split at hc
    · cases hc
    · split at hc
      · cases hc
      · omega
  cases hi : incrementNextHop f port with
  | none => rw [hi] at h; cases h
  | some r =>
  rw [hi, Option.bind_some] at h
  have hl : r.2.length = f.length := by
    unfold incrementNextHop at hi
    cases h1 : nextHop f with
    | none => rw [h1] at hi; cases hi
    | some n =>
    cases h2 : hopCount f with
    | none => rw [h1, h2] at hi; cases hi
    | some hh =>
    rw [h1, h2] at hi
    simp only [Option.bind_some] at hi
    unfold setPortNum setAt at hi
    split at hi
    · simp only [Option.bind_some] at hi
      split at hi
      · cases hi; simp
      · cases h3 : (f.set (frameFixedLength + n).toNat port)[2]? with
        | none => rw [h3] at hi; cases hi
        | some x =>
          rw [h3] at hi
          simp only [Option.bind_some] at hi
          split at hi
          · cases hi; simp
          · cases hi
    · cases hi
  by_cases hr : r.1 = true
  · rw [if_pos hr] at h
    cases hp : path r.2 with
    | none => rw [hp] at h; cases h
    | some q =>
      rw [hp] at h
      simp only [Option.map_some, Option.some.injEq, Outcome.accepted.injEq] at h
      obtain ⟨rfl, rfl⟩ := h
      refine ⟨?_, hl, hlen⟩
      unfold path at hp
      cases h1 : hopCount r.2 with
      | none => rw [h1] at hp; cases hp
      | some hh =>
        rw [h1, Option.bind_some] at hp
        unfold slice at hp
        split at hp
        · next hs =>
          cases hp
          simp only [frameFixedLength, List.length_drop, List.length_take, BitVec.toNat_ofNat] at hs ⊢
          omega
        · cases hp
  · rw [if_neg hr] at h
    cases h1 : isBroadcastFrame r.2 with
    | none => rw [h1] at h; cases h
    | some b =>
      rw [h1, Option.bind_some] at h
      cases b with
      | true => cases h
      | false =>
        cases h2 : nextPortNum r.2 with
        | none => rw [h2] at h; cases h
        | some p => rw [h2] at h; cases h

/-- A connection made of a frame of 4 to 255 bytes has the whole frame as its path from the peer. -/
theorem made (f : Bytes) (h1 : 4 ≤ f.length) (h2 : f.length ≤ 255) :
    ∃ c, Connection.zero.init f = some c ∧ c.pathFromPeer.get = some f := by
  have ok := zero_ok.1
  have hu : (Connection.zero.pathFromPeer.unmarshal f).Ok ∧ (Connection.zero.pathFromPeer.unmarshal f).len.toNat = f.length := by
    unfold Path.Ok at ok ⊢
    unfold Path.unmarshal
    rw [if_neg (by omega)]
    refine ⟨?_, by simp only [BitVec.toNat_ofNat]; omega⟩
    simp only [goCopy, List.length_append, List.length_take, List.length_drop]
    omega
  obtain ⟨r, e, _⟩ := C36_content_partial _ Connection.zero.pathToPeer hu.1 zero_ok.2 (by omega)
  have he : Connection.zero.init f = some { Connection.zero with pathFromPeer := Connection.zero.pathFromPeer.unmarshal f, pathToPeer := r } := by
    unfold Connection.init
    rw [e]; rfl
  exact ⟨_, he, C204_path_from_peer_violated _ _ f ok (by omega) h2 he⟩

/-- **C289** the part that holds: a frame that comes by the path of a registered connection is taken to it, and no connection is made. Missing: registered
connections are found by a wrong path, see `C289_new_each_time_violated`. -/
theorem C289_known_partial {T : Type} (tb : Table T) (port : Byte) (t : T) (f p f' : Bytes) (c : Connection)
    (h : Chapar.receive port f = some (.accepted p f')) (hg : tb.get t p = some c) :
    tb.receive port t f = some (t, .accepted p f', some (c, false)) := by
  unfold Table.receive Table.lastHop
  rw [h, Option.bind_some]
  simp only [hg, Option.map_some]

/-- A frame of one hop with a payload byte, as the switch of port 9 gets it. -/
def demoFrame : Bytes := [3, 1, 0, 7, 42]

example : Chapar.receive 9#8 demoFrame = some (.accepted [9] [3, 1, 0, 9, 42]) ∧
    listTable.get [⟨⟨List.replicate 255 0#8, 0#8⟩, ⟨9#8 :: List.replicate 254 0#8, 1#8⟩, []⟩] [9] ≠ none := by decide +kernel

/-- C289 violated: each frame of a peer, however many come by the same path, makes and registers a new connection: the connection is registered with the whole
frame as its path, so it is never found by the path. -/
theorem C289_new_each_time_violated {T : Type} (tb : Table T) (ht : tb.Lawful) (port : Byte) (p : Bytes) : ∀ (fs : List Bytes) (t : T), tb.get t p = none →
    (∀ f ∈ fs, f.length ≤ 255 ∧ ∃ f', Chapar.receive port f = some (.accepted p f')) →
    ∃ t' rs, tb.serve port t fs = some (t', rs) ∧ rs.length = fs.length ∧ (∀ r ∈ rs, ∃ c, r = some (c, true)) ∧ tb.get t' p = none
  | [], t, hg, _ => ⟨t, [], rfl, rfl, by simp, hg⟩
  | f :: fs, t, hg, hf => by
    obtain ⟨hl, f', hr⟩ := hf f (List.mem_cons_self ..)
    obtain ⟨l1, l2, l3, _⟩ := accepted_length port f p f' hr
    obtain ⟨c, hc, hp⟩ := made f' (by omega) (by omega)
    have hg' : tb.get (tb.register t c) p = none := by
      rw [ht, hg]
      dsimp only
      rw [if_neg]
      rw [hp]
      intro e
      cases e
      omega
    obtain ⟨t', rs, k1, k2, k3, k4⟩ := C289_new_each_time_violated tb ht port p fs (tb.register t c) hg' (fun x hx => hf x (List.mem_cons_of_mem _ hx))
    refine ⟨t', some (c, true) :: rs, ?_, by simp [k2], ?_, k4⟩
    · unfold Table.serve
      have : tb.receive port t f = some (tb.register t c, .accepted p f', some (c, true)) := by
        unfold Table.receive Table.lastHop
        rw [hr, Option.bind_some]
        simp only [hg, hc, Option.map_some]
      rw [this, Option.bind_some]
      simp only [k1, Option.map_some]
    · intro r hr'
      rcases List.mem_cons.mp hr' with e | e
      · exact ⟨c, e⟩
      · exact k3 r e

example : listTable.get [] [9] = none ∧ (listTable.serve 9#8 [] [demoFrame, demoFrame, demoFrame]).map (fun r => r.1.length) = some 3 := by
  decide +kernel

/-- C289 violated: a frame whose path reads as the bytes of an earlier frame is taken to the connection of that frame, whoever sent it. -/
theorem C289_mixed_violated {T : Type} (tb : Table T) (ht : tb.Lawful) (port : Byte) (t : T) (g p g' f f' : Bytes)
    (hg : Chapar.receive port g = some (.accepted p g')) (hl : g.length ≤ 255) (hn : tb.get t p = none) (hn' : tb.get t g' = none)
    (hf : Chapar.receive port f = some (.accepted g' f')) :
    ∃ t' c, tb.serve port t [g, f] = some (t', [some (c, true), some (c, false)]) := by
  obtain ⟨l1, l2, l3, _⟩ := accepted_length port g p g' hg
  obtain ⟨c, hc, hp⟩ := made g' (by omega) (by omega)
  have e : tb.get (tb.register t c) g' = some c := by
    rw [ht, hn']
    dsimp only
    rw [if_pos hp]
  refine ⟨tb.register t c, c, ?_⟩
  unfold Table.serve
  have : tb.receive port t g = some (tb.register t c, .accepted p g', some (c, true)) := by
    unfold Table.receive Table.lastHop
    rw [hg, Option.bind_some]
    simp only [hn, hc, Option.map_some]
  rw [this, Option.bind_some]
  dsimp only
  unfold Table.serve
  rw [C289_known_partial tb port _ f g' f' c hf e]
  rfl

example : Chapar.receive 9#8 [3, 1, 0, 7] = some (.accepted [9] [3, 1, 0, 9]) ∧ Chapar.receive 9#8 [3, 4, 3, 3, 1, 0, 8] = some (.accepted [3, 1, 0, 9] [3, 4, 3, 3, 1, 0, 9]) ∧
    (listTable.serve 9#8 [] [[3, 1, 0, 7], [3, 4, 3, 3, 1, 0, 8]]).map (fun r => r.1.length) = some 1 := by decide +kernel

/-- C289 violated: the way back of a new connection is the whole frame backwards, payload and header with it, and zeros after it: whatever is sent on the connection goes
first to the port that the last payload byte of the frame received names, so the sender of a frame chooses where answers go, and every answer carries that payload. -/
theorem C289_way_back_violated {T : Type} (tb : Table T) (port : Byte) (t : T) (f p f' : Bytes)
    (h : Chapar.receive port f = some (.accepted p f')) (hl : f.length ≤ 255) (hn : tb.get t p = none) :
    ∃ t' c, tb.receive port t f = some (t', .accepted p f', some (c, true)) ∧
      c.pathToPeer.path = f'.reverse ++ List.replicate (255 - f.length) 0#8 ∧ c.pathToPeer.len.toNat = f.length / 2 - 1 ∧ c.alternativePaths = [] ∧
      ∀ packet : Bytes, 258 ≤ packet.length → ∃ g n, c.writeFrame packet = some (g, n) ∧
        (g.drop 3).take 255 = f'.reverse ++ List.replicate (255 - f.length) 0#8 ∧ g[3]? = f'.getLast? := by
  obtain ⟨l1, l2, l3, _⟩ := accepted_length port f p f' h
  have ok := zero_ok.1
  have hlen : (Connection.zero.pathFromPeer.unmarshal f').len.toNat = f'.length := by
    unfold Path.unmarshal
    rw [if_neg (by omega)]
    simp only [BitVec.toNat_ofNat]; omega
  have hu : (Connection.zero.pathFromPeer.unmarshal f').Ok := by
    unfold Path.Ok at ok ⊢
    unfold Path.unmarshal
    rw [if_neg (by omega)]
    simp only [goCopy, List.length_append, List.length_take, List.length_drop]
    omega
  have htake : (Connection.zero.pathFromPeer.unmarshal f').path.take f'.length = f' := by
    unfold Path.Ok at ok
    unfold Path.unmarshal
    rw [if_neg (by omega)]
    simp only [goCopy]
    rw [List.take_left' (by simp; omega), List.take_of_length_le (by omega)]
  obtain ⟨r, e, e1, e2⟩ := C36_content_partial _ Connection.zero.pathToPeer hu zero_ok.2 (by omega)
  rw [hlen, htake] at e1
  rw [hlen] at e2
  have ez : Connection.zero.pathToPeer.path.drop f'.length = List.replicate (255 - f.length) 0#8 := by
    rw [← l2]; exact List.drop_replicate
  rw [ez] at e1
  have he : Connection.zero.init f' = some { Connection.zero with pathFromPeer := Connection.zero.pathFromPeer.unmarshal f', pathToPeer := r } := by
    unfold Connection.init
    rw [e]; rfl
  refine ⟨tb.register t { Connection.zero with pathFromPeer := Connection.zero.pathFromPeer.unmarshal f', pathToPeer := r },
    { Connection.zero with pathFromPeer := Connection.zero.pathFromPeer.unmarshal f', pathToPeer := r }, ?_, e1, by rw [e2, l2], rfl, fun packet hp => ?_⟩
  · unfold Table.receive Table.lastHop
    rw [h, Option.bind_some]
    simp only [hn, he, Option.map_some]
  · have hrl : r.path.length = 255 := by rw [e1]; simp; omega
    match packet, hp with
    | x :: y :: z :: q, hp =>
      have hq : 255 ≤ q.length := by simp at hp; omega
      have hc : goCopy q r.path = r.path ++ q.drop 255 := by
        simp only [goCopy, hrl]
        rw [List.take_of_length_le (by omega)]
      refine ⟨frameTypeChapar :: 255#8 :: z :: goCopy q r.path, 2, ?_, ?_, ?_⟩
      · have hi : Chapar.init (x :: y :: z :: q) r.path = some (frameTypeChapar :: 255#8 :: z :: goCopy q r.path) := by
          simp [Chapar.init, setFrameType, setHopCount, setPath, onSliceFrom, sliceFrom, setAt, frameFixedLength, hrl]
        simp only [Connection.writeFrame, hi, Option.bind_some]
        rfl
      · rw [hc]
        simp only [List.drop_succ_cons, List.drop_zero]
        rw [List.take_left' hrl, e1]
      · rw [hc, e1]
        simp only [List.getElem?_cons_succ]
        have hne : f' ≠ [] := by intro hx; rw [hx] at l1; simp at l1
        rw [List.append_assoc, List.getElem?_append_left (by simp; omega), ← List.head?_eq_getElem?, List.head?_reverse]

example : (listTable.receive 9#8 [] demoFrame).bind (fun r => r.2.2.bind fun c => (c.1.writeFrame (List.replicate 260 0#8)).map fun w => w.1.take 9) =
    some [3, 255, 0, 42, 9, 0, 1, 3, 0] := by decide +kernel

/-- C289 violated: a valid frame of 256 or 257 bytes that arrives at its last hop by a path that is not known ends in a panic: its length is cut to one byte, and
reversing a path of length zero or one runs out of the path. -/
theorem C289_long_frame_panic_violated {T : Type} (tb : Table T) (port : Byte) (t : T) (f p f' : Bytes)
    (h : Chapar.receive port f = some (.accepted p f')) (hl : f.length = 256 ∨ f.length = 257) (hn : tb.get t p = none) :
    tb.receive port t f = none := by
  obtain ⟨_, l2, _, _⟩ := accepted_length port f p f' h
  have ok := zero_ok.1
  have hu : (Connection.zero.pathFromPeer.unmarshal f').Ok ∧ (Connection.zero.pathFromPeer.unmarshal f').len.toNat < 2 := by
    unfold Path.Ok at ok ⊢
    unfold Path.unmarshal
    rw [if_neg (by omega)]
    refine ⟨?_, by simp only [BitVec.toNat_ofNat]; omega⟩
    simp only [goCopy, List.length_append, List.length_take, List.length_drop]
    omega
  unfold Table.receive Table.lastHop
  rw [h, Option.bind_some]
  simp only [hn, Connection.init, C36_short_violated _ _ hu.1 hu.2, Option.map_none]

example : Chapar.receive 9#8 ([3, 1, 0, 7] ++ List.replicate 252 0) = some (.accepted [9] ([3, 1, 0, 9] ++ List.replicate 252 0)) ∧
    ([3, 1, 0, 7] ++ List.replicate 252 0 : Bytes).length = 256 ∧
    listTable.receive 9#8 [] ([3, 1, 0, 7] ++ List.replicate 252 0) = none := by decide +kernel

/-- What a connection made of a frame has as its two paths. -/
theorem made_back (f : Bytes) (h1 : 4 ≤ f.length) (h2 : f.length ≤ 255) (c : Connection) (hc : Connection.zero.init f = some c) :
    c.pathFromPeer.Ok ∧ c.pathFromPeer.len.toNat = f.length ∧ c.pathFromPeer.path.take f.length = f ∧
      c.pathToPeer.path = f.reverse ++ List.replicate (255 - f.length) 0#8 ∧ c.alternativePaths = [] := by
  have ok := zero_ok.1
  have hlen : (Connection.zero.pathFromPeer.unmarshal f).len.toNat = f.length := by
    unfold Path.unmarshal
    rw [if_neg (by omega)]
    simp only [BitVec.toNat_ofNat]; omega
  have hu : (Connection.zero.pathFromPeer.unmarshal f).Ok := by
    unfold Path.Ok at ok ⊢
    unfold Path.unmarshal
    rw [if_neg (by omega)]
    simp only [goCopy, List.length_append, List.length_take, List.length_drop]
    omega
  have htake : (Connection.zero.pathFromPeer.unmarshal f).path.take f.length = f := by
    unfold Path.Ok at ok
    unfold Path.unmarshal
    rw [if_neg (by omega)]
    simp only [goCopy]
    rw [List.take_left' (by simp; omega), List.take_of_length_le (by omega)]
  obtain ⟨r, e, e1, e2⟩ := C36_content_partial _ Connection.zero.pathToPeer hu zero_ok.2 (by omega)
  rw [hlen, htake] at e1
  have ez : Connection.zero.pathToPeer.path.drop f.length = List.replicate (255 - f.length) 0#8 := List.drop_replicate
  rw [ez] at e1
  unfold Connection.init at hc
  rw [e] at hc
  cases hc
  exact ⟨hu, hlen, htake, e1, rfl⟩

/-- C204 violated, over the history of a connection: on a connection made of a received frame, an alternative path that is added, however different, and then changed to, is
lost when its bytes beyond the length of that frame are zero, as those of every path not longer than the frame are: the connection sends by the same path as before,
has that path a second time as its only alternative, and a further change leaves it so. -/
theorem C204_alternative_lost_violated (f : Bytes) (h1 : 4 ≤ f.length) (h2 : f.length ≤ 255) (c : Connection) (hc : Connection.zero.init f = some c)
    (a : Path) (ha : a.Ok) (hz : a.path.drop f.length = List.replicate (255 - f.length) 0#8) (hne : a.path ≠ c.pathToPeer.path) :
    ∃ c1 c2, c.setAlternativePath a = (c1, none) ∧ c1.alternativePaths = [a] ∧ c1.changePath 0 = some c2 ∧
      c2.pathToPeer.path = c.pathToPeer.path ∧ c2.alternativePaths = [c.pathToPeer] ∧
      ∃ c3, c2.changePath 0 = some c3 ∧ c3.pathToPeer.path = c.pathToPeer.path ∧ c3.alternativePaths.map (·.path) = [c.pathToPeer.path] := by
  obtain ⟨m1, m2, m3, m4, m5⟩ := made_back f h1 h2 c hc
  have hq : c.pathToPeer.Ok := by unfold Path.Ok; rw [m4]; simp; omega
  have hs : c.setAlternativePath a = ({ c with alternativePaths := [a] }, none) := by
    unfold Connection.setAlternativePath
    rw [if_neg (fun e => hne e.symm), m5]
    rfl
  obtain ⟨r, k1, k2, _⟩ := C36_content_partial c.pathFromPeer a m1 ha (by omega)
  rw [m2, m3, hz, ← m4] at k2
  obtain ⟨r', j1, j2, _⟩ := C36_content_partial c.pathFromPeer c.pathToPeer m1 hq (by omega)
  have hd : c.pathToPeer.path.drop f.length = List.replicate (255 - f.length) 0#8 := by
    rw [m4, List.drop_left' (by simp)]
  rw [m2, m3, hd, ← m4] at j2
  refine ⟨_, { c with pathToPeer := r, alternativePaths := [c.pathToPeer] }, hs, rfl, ?_, k2, rfl,
    { c with pathToPeer := r', alternativePaths := [r] }, ?_, j2, ?_⟩
  · simp [Connection.changePath, k1, setAt]
  · simp [Connection.changePath, j1, setAt]
  · simp [k2]

example : (Connection.zero.init [3, 1, 0, 9, 42]).bind (fun c => (((c.setAlternativePath ⟨[5, 6] ++ List.replicate 253 0, 2⟩).1).changePath 0).map fun c2 =>
    (decide (c2.pathToPeer.path = c.pathToPeer.path), c2.alternativePaths.map fun q => q.path.take 6)) = some (true, [[42, 9, 0, 1, 3, 0]]) := by decide +kernel

end Memar.Chapar
