import Verif.Chapar.Model

/-!
# C36, C37, C38, C77: Chapar paths, frames, port loops and connections
-/

namespace Memar.Chapar
open Memar

/-! ## C36: reversing a path -/

theorem reverseLoop_eq (p : Bytes) (hp : p.length = 255) (n : Nat) (hn : 2 ≤ n) (hn' : n ≤ 255) :
    ∀ (fuel : Nat) (rev : Bytes) (ln j : Byte), rev.length = 255 → ln.toNat + j.toNat = n - 1 →
      j.toNat ≤ ln.toNat + 2 → ln.toNat + 1 ≤ j.toNat + fuel →
      ∃ rev', reverseLoop p rev ln j (fuel + 1) = some (rev', BitVec.ofNat 8 (n / 2 - 1)) ∧
        rev'.length = 255 ∧
        ∀ i, rev'[i]? = if j.toNat ≤ i ∧ i ≤ ln.toNat then p[n - 1 - i]? else rev[i]? := by
  intro fuel
  induction fuel with
  | zero =>
    intro rev ln j hr hs hj hf
    have hlt : ¬ j ≤ ln := by rw [BitVec.le_def]; omega
    refine ⟨rev, ?_, hr, ?_⟩
    · rw [reverseLoop, if_neg hlt]
      have : n / 2 - 1 = ln.toNat := by omega
      rw [this]; simp
    · intro i
      rw [if_neg (by omega)]
  | succ fuel ih =>
    intro rev ln j hr hs hj hf
    by_cases hle : j.toNat ≤ ln.toNat
    · have hlt : j ≤ ln := by rw [BitVec.le_def]; exact hle
      have hln1 : (ln - 1#8).toNat = ln.toNat - 1 := by
        rw [BitVec.toNat_sub]; have := ln.isLt; simp; omega
      have hj1 : (j + 1#8).toNat = j.toNat + 1 := by
        rw [BitVec.toNat_add]; have := j.isLt; simp; omega
      have hpj : p[j.toNat]? = some p[j.toNat] := List.getElem?_eq_getElem (by omega)
      have hpl : p[ln.toNat]? = some p[ln.toNat] := List.getElem?_eq_getElem (by omega)
      obtain ⟨rev', h1, h2, h3⟩ := ih ((rev.set ln.toNat p[j.toNat]).set j.toNat p[ln.toNat])
        (ln - 1#8) (j + 1#8) (by simp [hr]) (by omega) (by omega) (by omega)
      refine ⟨rev', ?_, h2, ?_⟩
      · rw [reverseLoop, if_pos hlt, hpj, Option.bind_some, hpl, Option.bind_some, setAt,
          if_pos (by omega), Option.bind_some, setAt, if_pos (by simp; omega), Option.bind_some, h1]
      · intro i
        rw [h3, hln1, hj1]
        by_cases hi : j.toNat ≤ i ∧ i ≤ ln.toNat
        · rw [if_pos hi]
          by_cases hij : i = j.toNat
          · subst hij
            rw [if_neg (by omega), List.getElem?_set_self (by simp; omega), ← hpl]
            congr 1; omega
          · by_cases hil : i = ln.toNat
            · subst hil
              rw [if_neg (by omega), List.getElem?_set_ne (by omega),
                List.getElem?_set_self (by omega), ← hpj]
              congr 1; omega
            · rw [if_pos (by omega)]
        · rw [if_neg hi, if_neg (by omega), List.getElem?_set_ne (by omega),
            List.getElem?_set_ne (by omega)]
    · have hlt : ¬ j ≤ ln := by rw [BitVec.le_def]; omega
      refine ⟨rev, ?_, hr, ?_⟩
      · rw [reverseLoop, if_neg hlt]
        have : n / 2 - 1 = ln.toNat := by omega
        rw [this]; simp
      · intro i
        rw [if_neg (by omega)]

/-- C36, the part that holds: for a path of two or more hops the array of the other variable begins
with the hops in the opposite order and keeps its other bytes; the length stored is half the length
minus one.  Missing: the length and paths of fewer than two hops. -/
theorem C36_content_partial (p rev : Path) (hp : p.Ok) (hr : rev.Ok) (hn : 2 ≤ p.len.toNat) :
    ∃ r, p.copyReverseTo rev = some r ∧
      r.path = (p.path.take p.len.toNat).reverse ++ rev.path.drop p.len.toNat ∧
      r.len.toNat = p.len.toNat / 2 - 1 := by
  have hlt := p.len.isLt
  unfold Path.Ok at hp hr
  have hl1 : (p.len - 1#8).toNat = p.len.toNat - 1 := by
    rw [BitVec.toNat_sub]; simp; omega
  obtain ⟨rev', h1, h2, h3⟩ := reverseLoop_eq p.path hp p.len.toNat hn (by omega) 255 rev.path
    (p.len - 1#8) 0#8 hr (by simp [hl1]) (by simp) (by simp; omega)
  refine ⟨⟨rev', BitVec.ofNat 8 (p.len.toNat / 2 - 1)⟩, ?_, ?_, ?_⟩
  · rw [Path.copyReverseTo, h1]; rfl
  · apply List.ext_getElem?
    intro i
    rw [h3, hl1]
    by_cases hi : i < p.len.toNat
    · rw [if_pos (by simp; omega), List.getElem?_append_left (by simp; omega),
        List.getElem?_reverse (by simp; omega), List.length_take, Nat.min_eq_left (by omega),
        List.getElem?_take_of_lt (by omega)]
    · rw [if_neg (by simp; omega), List.getElem?_append_right (by simp; omega), List.length_reverse,
        List.length_take, Nat.min_eq_left (by omega), List.getElem?_drop]
      congr 1; omega
  · simp; omega

example : Path.copyReverseTo ⟨[1, 2, 3, 4, 5] ++ List.replicate 250 0#8, 5#8⟩
    ⟨List.replicate 255 9#8, 0#8⟩ = some ⟨[5, 4, 3, 2, 1] ++ List.replicate 250 9#8, 1#8⟩ := by
  decide +kernel

/-- C36: the length of the reverse is never the length of the path. -/
theorem C36_length_violated (p rev r : Path) (hp : p.Ok) (hr : rev.Ok)
    (h : p.copyReverseTo rev = some r) (hn : 2 ≤ p.len.toNat) : r.len.toNat < p.len.toNat := by
  obtain ⟨r', h1, _, h3⟩ := C36_content_partial p rev hp hr hn
  rw [h] at h1
  have : r = r' := by injection h1
  subst this
  omega

example := C36_length_violated ⟨[1, 2, 3, 4, 5] ++ List.replicate 250 0#8, 5#8⟩ ⟨List.replicate 255 9#8, 0#8⟩
  ⟨[5, 4, 3, 2, 1] ++ List.replicate 250 9#8, 1#8⟩ (by unfold Path.Ok; decide +kernel) (by unfold Path.Ok; decide +kernel) (by decide +kernel) (by decide)

/-- C36: paths of no or one hop make it panic. -/
theorem C36_short_violated (p rev : Path) (hp : p.Ok) (hn : p.len.toNat < 2) :
    p.copyReverseTo rev = none := by
  unfold Path.Ok at hp
  have hn' : p.len = 0#8 ∨ p.len = 1#8 := by
    have : p.len.toNat = 0 ∨ p.len.toNat = 1 := by omega
    rcases this with h | h
    · left; apply BitVec.eq_of_toNat_eq; simp [h]
    · right; apply BitVec.eq_of_toNat_eq; simp [h]
  have h255 : p.path[255]? = none := by rw [List.getElem?_eq_none_iff]; omega
  have bn : ∀ (x : Option Byte) (f : Byte → Option (Bytes × Byte)), (x.bind fun a =>
      (none : Option Byte).bind fun _ => f a) = none := by intro x f; cases x <;> rfl
  suffices h : reverseLoop p.path rev.path (p.len - 1#8) 0#8 256 = none by
    rw [Path.copyReverseTo, h]; rfl
  rcases hn' with h | h
  · rw [h, show (0#8 - 1#8) = 255#8 from rfl, show (256 : Nat) = 255 + 1 from rfl, reverseLoop,
      if_pos (by decide), show (255#8).toNat = 255 from rfl, h255]
    cases p.path[(0#8).toNat]? <;> rfl
  · rw [h, show (1#8 - 1#8) = 0#8 from rfl, show (256 : Nat) = 254 + 1 + 1 from rfl, reverseLoop,
      if_pos (by decide)]
    have step : ∀ rev, reverseLoop p.path rev (0#8 - 1#8) (0#8 + 1#8) (254 + 1) = none := by
      intro rev
      rw [show (0#8 - 1#8) = 255#8 from rfl, show (0#8 + 1#8) = 1#8 from rfl, reverseLoop,
        if_pos (by decide), show (255#8).toNat = 255 from rfl, h255]
      cases p.path[(1#8).toNat]? <;> rfl
    simp only [step]
    simp only [Option.bind_fun_none]

example := C36_short_violated ⟨List.replicate 255 0#8, 1#8⟩ ⟨List.replicate 255 9#8, 0#8⟩ (by unfold Path.Ok; decide +kernel) (by decide)

/-- C36: reversing twice never gives the path back. -/
theorem C36_twice_violated (p a b r q : Path) (hp : p.Ok) (ha : a.Ok) (hb : b.Ok)
    (h1 : p.copyReverseTo a = some r) (h2 : r.copyReverseTo b = some q) : q.get ≠ p.get := by
  have hn : 2 ≤ p.len.toNat := by
    apply Decidable.byContradiction
    intro hc
    rw [C36_short_violated p a hp (by omega)] at h1
    simp at h1
  have hl1 := C36_length_violated p a r hp ha h1 hn
  have hr : r.Ok := by
    obtain ⟨r', h1', h, _⟩ := C36_content_partial p a hp ha hn
    rw [h1] at h1'
    have : r = r' := by injection h1'
    subst this
    unfold Path.Ok at *
    have := p.len.isLt
    rw [h]; simp [hp, ha]; omega
  have hn2 : 2 ≤ r.len.toNat := by
    apply Decidable.byContradiction
    intro hc
    rw [C36_short_violated r b hr (by omega)] at h2
    simp at h2
  have hl2 := C36_length_violated r b q hr hb h2 hn2
  have hq : q.path.length = 255 := by
    obtain ⟨q', h2', h, _⟩ := C36_content_partial r b hr hb hn2
    rw [h2] at h2'
    have : q = q' := by injection h2'
    subst this
    have := r.len.isLt
    unfold Path.Ok at *
    rw [h]; simp [hr, hb]; omega
  intro h
  have hp' : p.path.length = 255 := hp
  have l1 := p.len.isLt
  rw [Path.get, Path.get, sliceTo, sliceTo, if_pos (by omega), if_pos (by omega)] at h
  injection h with h
  have := congrArg List.length h
  simp only [List.length_take] at this
  omega

example := C36_twice_violated ⟨[1, 2, 3, 4, 5, 6] ++ List.replicate 249 0#8, 6#8⟩ ⟨List.replicate 255 0#8, 0#8⟩
  ⟨List.replicate 255 0#8, 0#8⟩ ⟨[6, 5, 4, 3, 2, 1] ++ List.replicate 249 0#8, 2#8⟩ ⟨[5, 6] ++ List.replicate 253 0#8, 0#8⟩
  (by unfold Path.Ok; decide +kernel) (by unfold Path.Ok; decide +kernel) (by unfold Path.Ok; decide +kernel) (by decide +kernel) (by decide +kernel)

/-! ## C37: frames -/

/-- A frame in transit: `done` ports recorded so far, `todo` the rest of the path. -/
def transit (h : Byte) (done todo rest : Bytes) : Bytes :=
  [frameTypeChapar, h, BitVec.ofNat 8 done.length] ++ done ++ todo ++ rest

theorem check_transit (h : Byte) (done todo rest : Bytes) (h1 : 1 ≤ todo.length)
    (h2 : (transit h done todo rest).length ≤ 258) :
    checkFrame (transit h done todo rest) = some none := by
  rw [checkFrame, if_neg (by simp [transit, minFrameLen]; omega), if_neg (by simp only [maxFrameLen]; omega)]
  rfl

theorem hop_transit (h : Byte) (done todo rest : Bytes) (h0 : h ≠ 0#8) :
    hopCount (transit h done todo rest) = some h := by
  have : isBroadcastFrame (transit h done todo rest) = some false := by
    simp [isBroadcastFrame, transit, broadcastHopCount, h0]
  rw [hopCount, this]
  rfl

/-- The core of a switch: record the port, then either stop or move on. -/
theorem receive_transit (h : Byte) (done rest : Bytes) (t : Byte) (todo : Bytes) (port : Byte)
    (hh : h.toNat = done.length + (todo.length + 1)) (hh' : h.toNat ≤ 252)
    (hl : (transit h done (t :: todo) rest).length ≤ 258) :
    receive port (transit h done (t :: todo) rest) =
      match todo with
      | [] => some (.accepted (done ++ [port]) ([frameTypeChapar, h, BitVec.ofNat 8 done.length] ++
          done ++ [port] ++ rest))
      | t' :: todo => some (.forwarded t' (transit h (done ++ [port]) (t' :: todo) rest)) := by
  have h0 : h ≠ 0#8 := by intro e; subst e; simp at hh
  have hd : done.length < 256 := by omega
  have dn : (BitVec.ofNat 8 done.length).toNat = done.length := by
    rw [BitVec.toNat_ofNat, Nat.mod_eq_of_lt (by omega)]
  have hidx : (frameFixedLength + BitVec.ofNat 8 done.length).toNat = 3 + done.length := by
    rw [BitVec.toNat_add, dn]; simp [frameFixedLength]; omega
  rw [receive, check_transit _ _ _ _ (by simp) hl, Option.bind_some]
  dsimp only
  have hset : setPortNum (transit h done (t :: todo) rest) (BitVec.ofNat 8 done.length) port
      = some ([frameTypeChapar, h, BitVec.ofNat 8 done.length] ++ done ++ (port :: todo) ++ rest) := by
    rw [setPortNum, hidx, setAt, if_pos (by simp [transit]; omega)]
    simp [transit, Nat.add_comm 3]
  have hinc : incrementNextHop (transit h done (t :: todo) rest) port =
      if todo = [] then some (true, [frameTypeChapar, h, BitVec.ofNat 8 done.length] ++ done ++
        (port :: todo) ++ rest)
      else some (false, [frameTypeChapar, h, BitVec.ofNat 8 (done.length + 1)] ++ done ++
        (port :: todo) ++ rest) := by
    rw [incrementNextHop, show nextHop (transit h done (t :: todo) rest)
      = some (BitVec.ofNat 8 done.length) from rfl, Option.bind_some, hop_transit _ _ _ _ h0,
      Option.bind_some, hset, Option.bind_some]
    have hcond : BitVec.ofNat 8 done.length = h - 1#8 ↔ todo = [] := by
      have h1 : (h - 1#8).toNat = h.toNat - 1 := by
        rw [BitVec.toNat_sub]; have := h.isLt; simp; omega
      constructor
      · intro e
        have := congrArg BitVec.toNat e
        rw [dn, h1] at this
        exact List.length_eq_zero_iff.1 (by omega)
      · intro e
        subst e
        apply BitVec.eq_of_toNat_eq
        rw [dn, h1]; simp at hh; omega
    by_cases ht : todo = []
    · rw [if_pos (hcond.2 ht), if_pos ht]
    · rw [if_neg (fun e => ht (hcond.1 e)), if_neg ht]
      simp [setAt, BitVec.ofNat_add]
  rw [hinc]
  cases todo with
  | nil =>
    rw [if_pos rfl, Option.bind_some, if_pos rfl]
    have hhc : hopCount ([frameTypeChapar, h, BitVec.ofNat 8 done.length] ++ done ++ [port] ++ rest)
        = some h := by
      have : isBroadcastFrame ([frameTypeChapar, h, BitVec.ofNat 8 done.length] ++ done ++ [port] ++ rest)
          = some false := by
        simp [isBroadcastFrame, broadcastHopCount, h0]
      rw [hopCount, this]
      rfl
    have h3 : (frameFixedLength + h).toNat = 3 + h.toNat := by
      rw [BitVec.toNat_add]; simp [frameFixedLength]; omega
    rw [path, hhc, Option.bind_some, h3, slice,
      if_pos ⟨by simp [frameFixedLength], by simp at hh ⊢; omega⟩, Option.map_some]
    congr 2
    rw [List.take_left' (by simp at hh ⊢; omega), show frameFixedLength.toNat = 3 from rfl,
      List.append_assoc, List.drop_left' (by rfl)]
  | cons t' todo =>
    rw [if_neg (by simp), Option.bind_some, if_neg (by simp)]
    have hbc : isBroadcastFrame ([frameTypeChapar, h, BitVec.ofNat 8 (done.length + 1)] ++ done ++
        (port :: t' :: todo) ++ rest) = some false := by
      simp [isBroadcastFrame, broadcastHopCount, h0]
    have hnp : nextPortNum ([frameTypeChapar, h, BitVec.ofNat 8 (done.length + 1)] ++ done ++
        (port :: t' :: todo) ++ rest) = some t' := by
      have e : (frameFixedLength + BitVec.ofNat 8 (done.length + 1)).toNat = done.length + 1 + 3 := by
        rw [BitVec.toNat_add, BitVec.toNat_ofNat]; simp [frameFixedLength]; simp at hh; omega
      rw [nextPortNum, show nextHop ([frameTypeChapar, h, BitVec.ofNat 8 (done.length + 1)] ++ done ++
        (port :: t' :: todo) ++ rest) = some (BitVec.ofNat 8 (done.length + 1)) from rfl,
        Option.bind_some, e]
      simp
    rw [hbc, Option.bind_some, if_neg (by simp), hnp, Option.map_some]
    simp [transit]

theorem travel_transit (h : Byte) (hh' : h.toNat ≤ 252) (rest : Bytes) (ps : List Byte) :
    ∀ (done : Bytes) (t : Byte) (todo : Bytes), h.toNat = done.length + (todo.length + 1) →
      (transit h done (t :: todo) rest).length ≤ 258 → ∀ p, ps.length + 1 ≤ todo.length + 1 →
      travel (transit h done (t :: todo) rest) (p :: ps) = some (todo.take ps.length,
        match todo.drop ps.length with
        | [] => .accepted (done ++ p :: ps) ([frameTypeChapar, h, BitVec.ofNat 8 (h.toNat - 1)] ++
            (done ++ p :: ps) ++ rest)
        | t' :: todo' => .forwarded t' (transit h (done ++ p :: ps) (t' :: todo') rest)) := by
  induction ps with
  | nil =>
    intro done t todo hh hl p _
    rw [travel, receive_transit h done rest t todo p hh hh' hl]
    cases todo with
    | nil =>
      simp only [List.length_nil] at hh
      simp [show h.toNat - 1 = done.length by omega]
    | cons t' todo => simp
  | cons q ps ih =>
    intro done t todo hh hl p hp
    match todo, hp with
    | t' :: todo, hp =>
      simp only [List.length_cons] at hp hh
      rw [travel, receive_transit h done rest t (t' :: todo) p (by simpa using hh) hh' hl]
      dsimp only
      rw [Option.bind_some]
      dsimp only
      rw [ih (done ++ [p]) t' todo (by simp; omega) (by simp [transit] at hl ⊢; omega) q (by omega),
        Option.map_some]
      simp

/-- C37: the travel of a frame.  A frame with a path of `h` hops (at most 252) passes through `k ≤ h`
switches.  It leaves each of them through the port written for it in the path; the arrival ports
replace the path from the front, in order; nothing else of the path or of the rest of the frame
changes; and the `h`-th switch, and no earlier one, accepts it, seeing as its path the arrival ports. -/
theorem C37_travel (h : Byte) (route rest : Bytes) (hr : route.length = h.toNat) (hh : h.toNat ≤ 252)
    (hl : 3 + route.length + rest.length ≤ 258) (ports : List Byte) (hp : 1 ≤ ports.length)
    (hk : ports.length ≤ route.length) :
    travel ([3#8, h, 0#8] ++ route ++ rest) ports = some ((route.drop 1).take (ports.length - 1),
      if hlt : ports.length < route.length then
        .forwarded route[ports.length]
          ([3#8, h, BitVec.ofNat 8 ports.length] ++ ports ++ route.drop ports.length ++ rest)
      else .accepted ports ([3#8, h, h - 1#8] ++ ports ++ rest)) := by
  match ports, hp with
  | p :: ps, _ =>
    match route, hk with
    | t :: todo, hk =>
      simp only [List.length_cons] at hr hk hl
      have key := travel_transit h hh rest ps [] t todo (by simp; omega)
        (by simp [transit]; omega) p hk
      have e : transit h [] (t :: todo) rest = [3#8, h, 0#8] ++ (t :: todo) ++ rest := rfl
      rw [e] at key
      rw [key]
      simp only [List.drop_succ_cons, List.drop_zero, List.length_cons, Nat.add_sub_cancel,
        List.nil_append, Option.some.injEq, Prod.mk.injEq, true_and]
      by_cases hlt : ps.length + 1 < todo.length + 1
      · rw [dif_pos hlt]
        have hd : todo.drop ps.length = todo[ps.length]'(by omega) :: todo.drop (ps.length + 1) :=
          List.drop_eq_getElem_cons (by omega)
        rw [hd]
        simp [transit, frameTypeChapar]
      · rw [dif_neg hlt]
        have hd : todo.drop ps.length = [] := by rw [List.drop_eq_nil_iff]; omega
        have e1 : BitVec.ofNat 8 (h.toNat - 1) = h - 1#8 := by
          apply BitVec.eq_of_toNat_eq
          have := h.isLt
          rw [BitVec.toNat_sub, BitVec.toNat_ofNat]; simp; omega
        rw [hd, e1]
        rfl

example : travel [3, 3, 0, 10, 20, 30, 99] [1, 2, 3]
    = some ([20#8, 30#8], .accepted [1, 2, 3] [3, 3, 2, 1, 2, 3, 99]) := by decide

/-- C192: the check promises that the other methods do not panic; a frame that passes it makes the
switch panic whenever its hop number points past its end. -/
theorem C192_checked_panic_violated (f : Bytes) (n port : Byte) (hc : checkFrame f = some none)
    (hn : f[2]? = some n) (h1 : n.toNat ≤ 252) (h2 : f.length ≤ 3 + n.toNat) :
    receive port f = none := by
  have hidx : (frameFixedLength + n).toNat = 3 + n.toNat := by
    rw [BitVec.toNat_add]; simp [frameFixedLength]; omega
  have : incrementNextHop f port = none := by
    rw [incrementNextHop, nextHop, hn, Option.bind_some, setPortNum, hidx, setAt, if_neg (by omega)]
    cases hopCount f <;> rfl
  rw [receive, hc, Option.bind_some]
  dsimp only
  rw [this]; rfl

example : checkFrame [3, 5, 1, 7] = some none ∧ receive 9#8 [3, 5, 1, 7] = none := by decide

/-- C192: from the 254th hop on, the port number is stored over the header: at hop number 253 the
frame type is replaced by the port number. -/
theorem C192_header_violated (f : Bytes) (n port : Byte) (b : Bool) (f' : Bytes) (hn : f[2]? = some n)
    (h1 : n = 253#8) (h : incrementNextHop f port = some (b, f')) : f'[0]? = some port := by
  subst h1
  have hidx : (frameFixedLength + 253#8).toNat = 0 := by decide
  rw [incrementNextHop, nextHop, hn, Option.bind_some] at h
  obtain ⟨hc, _, h⟩ := Option.bind_eq_some_iff.1 h
  rw [setPortNum, hidx] at h
  obtain ⟨g, hg, h⟩ := Option.bind_eq_some_iff.1 h
  rw [setAt] at hg
  split at hg
  · injection hg with hg
    have h0 : g[0]? = some port := by rw [← hg]; exact List.getElem?_set_self (by assumption)
    split at h
    · simp at h; rw [← h.2]; exact h0
    · obtain ⟨x, _, h⟩ := Option.bind_eq_some_iff.1 h
      rw [setAt] at h
      split at h
      · simp at h
        rw [← h.2, List.getElem?_set_ne (by omega)]; exact h0
      · simp at h
  · simp at hg

example := C192_header_violated ([3#8, 254#8, 253#8] ++ List.replicate 254 1#8) 253#8 9#8 true
  ([9#8, 254#8, 253#8] ++ List.replicate 254 1#8) rfl rfl (by decide +kernel)

/-- C192: no broadcast frame has a path: asking for it panics (the end of the path wraps to two). -/
theorem C192_broadcast_path_violated (f : Bytes) (h : isBroadcastFrame f = some true) :
    path f = none := by
  rw [path, hopCount, h, Option.bind_some, if_pos rfl, Option.bind_some]
  rw [slice, if_neg]
  intro h
  exact absurd h.1 (by decide)

example := C192_broadcast_path_violated [3#8, 0#8, 0#8, 7#8] (by decide)

/-- C192: a frame initialised without a path is meant to be a broadcast frame and is not one. -/
theorem C192_init_broadcast_violated (f f' : Bytes) (h : init f [] = some f') :
    isBroadcastFrame f' = some false := by
  match f with
  | [] => simp [init, setFrameType, setAt] at h
  | [_] => simp [init, setFrameType, setHopCount, setAt] at h
  | [_, _] => simp [init, setFrameType, setHopCount, setPath, onSliceFrom, sliceFrom, setAt,
      frameFixedLength] at h
  | a :: b :: c :: r =>
    simp [init, setFrameType, setHopCount, setPath, onSliceFrom, sliceFrom, setAt, frameFixedLength,
      goCopy] at h
    rw [← h]
    rfl

example := C192_init_broadcast_violated [0#8, 0#8, 0#8, 7#8] [3#8, 255#8, 0#8, 7#8] (by decide)

/-- C37: initialising a frame with a path of one to 252 hops: the frame shows that path and hop count,
and the next frame begins right after the path.  (The hop number of the frame is not touched.) -/
theorem C37_init (f p : Bytes) (h1 : 1 ≤ p.length) (h2 : p.length ≤ 252)
    (hf : 3 + p.length ≤ f.length) :
    ∃ f', init f p = some f' ∧ checkFrame f' = (if f.length > 258 then some (some .longFrameLength)
        else some none) ∧ path f' = some p ∧ hopCount f' = some (BitVec.ofNat 8 p.length) ∧
      frameLen f' = some (3 + p.length) ∧ nextFrame f' = some (f.drop (3 + p.length)) ∧
      nextHop f' = nextHop f := by
  match f, hf with
  | [], hf => simp at hf
  | [_], hf => simp at hf; omega
  | [_, _], hf => simp at hf; omega
  | a :: b :: c :: r, hf =>
    simp only [List.length_cons] at hf
    have hne : BitVec.ofNat 8 p.length ≠ 0#8 := by
      intro e
      have := congrArg BitVec.toNat e
      simp at this; omega
    have hto : (BitVec.ofNat 8 p.length).toNat = p.length := by
      rw [BitVec.toNat_ofNat, Nat.mod_eq_of_lt (by omega)]
    have hidx : (frameFixedLength + BitVec.ofNat 8 p.length).toNat = 3 + p.length := by
      rw [BitVec.toNat_add, hto]; simp [frameFixedLength]; omega
    have hi : init (a :: b :: c :: r) p
        = some (frameTypeChapar :: BitVec.ofNat 8 p.length :: c :: (p ++ r.drop p.length)) := by
      simp [init, setFrameType, setHopCount, setPath, onSliceFrom, sliceFrom, setAt, frameFixedLength,
        goCopy, hne, List.take_of_length_le (show p.length ≤ r.length by omega)]
    have hhc : hopCount (frameTypeChapar :: BitVec.ofNat 8 p.length :: c :: (p ++ r.drop p.length))
        = some (BitVec.ofNat 8 p.length) := by
      have : isBroadcastFrame (frameTypeChapar :: BitVec.ofNat 8 p.length :: c :: (p ++ r.drop p.length))
          = some false := by
        simp [isBroadcastFrame, broadcastHopCount, hne]
      rw [hopCount, this]; rfl
    refine ⟨_, hi, ?_, ?_, hhc, ?_, ?_, rfl⟩
    · have hlen : (frameTypeChapar :: BitVec.ofNat 8 p.length :: c :: (p ++ r.drop p.length)).length
          = (a :: b :: c :: r).length := by simp; omega
      rw [checkFrame, hlen, if_neg (by simp [minFrameLen]; omega)]
      rfl
    · rw [path, hhc, Option.bind_some, hidx, slice, if_pos ⟨by simp [frameFixedLength], by simp; omega⟩]
      rw [Nat.add_comm 3]
      simp [frameFixedLength]
    · rw [frameLen, hhc, Option.map_some, hidx]
    · rw [nextFrame, hhc, Option.bind_some, hidx, sliceFrom, if_pos (by simp; omega), Nat.add_comm 3]
      simp

example : init [0, 0, 0, 0, 0, 8, 9] [5, 6] = some [3, 2, 0, 5, 6, 8, 9] := by decide

/-- C37: in a frame whose path is `p`, the port at each hop is that hop's entry of the path, and a path
variable initialised from the frame gives the path back, whatever it held before. -/
theorem C37_ports_and_path (f p : Bytes) (hp : path f = some p) (hs : p.length < 252) (v : Path) (hv : v.Ok) :
    (∀ i < p.length, portNum f (BitVec.ofNat 8 i) = p[i]?) ∧
    ∃ v', v.init f = some v' ∧ v'.get = some p ∧ v'.path.length = 255 := by
  rw [path] at hp
  obtain ⟨h, hh, hp⟩ := Option.bind_eq_some_iff.1 hp
  have hsl := hp
  rw [slice] at hp
  split at hp
  · rename_i hc
    injection hp with hp
    have hlt := h.isLt
    have f3 : frameFixedLength.toNat = 3 := by decide
    have hlen : p.length = (frameFixedLength + h).toNat - 3 := by
      rw [← hp, List.length_drop, List.length_take, f3]
      have := hc.2
      omega
    have hadd : (frameFixedLength + h).toNat = (3 + h.toNat) % 256 := by
      rw [BitVec.toNat_add, f3]
    have hge := hc.1
    rw [f3, hadd] at hge
    have h3 : h.toNat ≤ 252 := by
      rcases Nat.lt_or_ge (3 + h.toNat) 256 with h' | h'
      · omega
      · rw [Nat.mod_eq_sub_mod h', Nat.mod_eq_of_lt (by omega)] at hge; omega
    rw [hadd, Nat.mod_eq_of_lt (by omega)] at hlen
    have hhl : h.toNat = p.length := by omega
    have hidx : (frameFixedLength + h).toNat = 3 + p.length := by
      rw [hadd, Nat.mod_eq_of_lt (by omega)]; omega
    constructor
    · intro i hi
      have : (frameFixedLength + BitVec.ofNat 8 i).toNat = 3 + i := by
        rw [BitVec.toNat_add, f3, BitVec.toNat_ofNat]; omega
      rw [portNum, this, ← hp, List.getElem?_drop, List.getElem?_take, if_pos (by rw [hidx, f3]; omega), f3]
    · rw [Path.Ok] at hv
      refine ⟨⟨goCopy v.path p, h⟩, ?_, ?_, ?_⟩
      · rw [Path.init, hh, Option.bind_some, hsl]; rfl
      · rw [Path.get, sliceTo, if_pos (by simp [goCopy, hv]; omega), hhl]
        simp only [goCopy, hv]
        rw [List.take_of_length_le (l := p) (by omega), List.take_left' rfl]
      · simp [goCopy, hv]; omega
  · simp at hp

example : path [3, 2, 0, 5, 6, 8, 9] = some [5, 6] ∧ portNum [3, 2, 0, 5, 6, 8, 9] 1 = some 6 ∧
    Path.Ok ⟨List.replicate 255 0#8, 0⟩ := ⟨by decide, by decide, List.length_replicate⟩

/-! ## C38: the loops over the ports -/

/-- C38: broadcasting never ends, whatever sending does. -/
theorem C38_broadcast_violated {σ} (send : Byte → σ → σ) (fuel : Nat) (i : Byte) (s s' : σ) :
    sendBroadcastLoop send fuel i s ≠ .ok s' := by
  induction fuel generalizing i s with
  | zero => intro h; cases h
  | succ n ih =>
    rw [sendBroadcastLoop, if_pos (by rw [BitVec.le_def]; have := i.isLt; simp; omega)]
    exact ih _ _

/-- C38: neither does initialising the port table. -/
theorem C38_init_violated {σ} (initPort : Byte → σ → σ) (port : Byte) (fuel : Nat) (s s' : σ) :
    initLoop initPort port fuel s ≠ .ok s' := C38_broadcast_violated _ _ _ _ _

theorem sendBroadcastLoop_steps {σ} (send : Byte → σ → σ) (k : Nat) : ∀ (i : Nat) (s : σ),
    sendBroadcastLoop send k (BitVec.ofNat 8 i) s = .error (BitVec.ofNat 8 (i + k),
      (List.range' i k).foldl (fun s i => send (BitVec.ofNat 8 i) s) s) := by
  induction k with
  | zero => intro i s; rfl
  | succ k ih =>
    intro i s
    rw [sendBroadcastLoop, if_pos (by rw [BitVec.le_def]; have := (BitVec.ofNat 8 i).isLt; simp; omega), List.range'_succ,
      List.foldl_cons]
    have : BitVec.ofNat 8 i + 1#8 = BitVec.ofNat 8 (i + 1) := by simp [BitVec.ofNat_add]
    rw [this, ih, show i + 1 + k = i + (k + 1) by omega]

/-- C38, the part that holds: the first 256 iterations send on every port once, in order; then the
loop is back at port zero.  Missing: it should end there. -/
theorem C38_first_round_partial {σ} (send : Byte → σ → σ) (s : σ) :
    sendBroadcastLoop send 256 0#8 s
      = .error (0#8, (List.range 256).foldl (fun s i => send (BitVec.ofNat 8 i) s) s) := by
  rw [List.range_eq_range']
  exact sendBroadcastLoop_steps send 256 0 s

/-- C38, the part that holds of `Init`: the first 256 iterations initialise the port of the given number,
once, and no other.  Missing: the loop should end there. -/
theorem C38_init_first_round_partial {σ} (initPort : Byte → σ → σ) (port : Byte) (s : σ) :
    initLoop initPort port 256 s = .error (0#8, initPort port s) := by
  unfold initLoop
  rw [C38_first_round_partial]
  have none_ : ∀ (l : List Nat) (s : σ), (∀ i ∈ l, i < 256 ∧ i ≠ port.toNat) →
      l.foldl (fun s i => initStep initPort port (BitVec.ofNat 8 i) s) s = s := by
    intro l
    induction l with
    | nil => intro s _; rfl
    | cons i l ih =>
      intro s h
      obtain ⟨h1, h2⟩ := h i (by simp)
      have hne : BitVec.ofNat 8 i ≠ port := by
        intro e
        apply h2
        rw [← e, BitVec.toNat_ofNat, Nat.mod_eq_of_lt (by omega)]
      rw [List.foldl_cons, initStep, if_neg hne]
      exact ih s fun j hj => h j (by simp [hj])
  have hp := port.isLt
  have split : List.range 256 = List.range' 0 port.toNat ++ port.toNat ::
      List.range' (port.toNat + 1) (255 - port.toNat) := by
    rw [List.range_eq_range', ← List.range'_succ, show 255 - port.toNat + 1 = 256 - port.toNat by omega]
    have := List.range'_append (s := 0) (m := port.toNat) (n := 256 - port.toNat) (step := 1)
    simp only [Nat.one_mul, Nat.zero_add] at this
    rw [this]
    congr 1
    omega
  rw [split, List.foldl_append, List.foldl_cons, none_, none_]
  · simp [initStep]
  · intro i hi
    rw [List.mem_range'_1] at hi
    omega
  · intro i hi
    rw [List.mem_range'_1] at hi
    omega

example : initLoop (fun i l => l ++ [i]) 7#8 256 ([] : List Byte) = .error (0#8, [7#8]) :=
  C38_init_first_round_partial _ _ _

example : sendBroadcastLoop (fun i l => l ++ [i]) 3 0#8 ([] : List Byte) = .error (3#8, [0, 1, 2]) := by decide

/-! ## C77: connections -/

/-- C204: a connection made from a frame takes the whole frame, header included, for the path from
the peer: its first bytes are the frame type, the hop count and the hop number. -/
theorem C204_path_from_peer_violated (c c' : Connection) (f : Bytes) (hc : c.pathFromPeer.Ok)
    (hf : 1 ≤ f.length) (hf' : f.length ≤ 255) (h : c.init f = some c') :
    c'.pathFromPeer.get = some f := by
  rw [Connection.init] at h
  obtain ⟨r, _, h⟩ := Option.map_eq_some_iff.1 h
  rw [← h]
  unfold Path.Ok at hc
  have hto : (BitVec.ofNat 8 f.length).toNat = f.length := by
    rw [BitVec.toNat_ofNat, Nat.mod_eq_of_lt (by omega)]
  simp only [Path.unmarshal]
  rw [if_neg (by omega), Path.get, sliceTo, if_pos (by simp [goCopy]; omega)]
  simp only [hto, goCopy]
  rw [List.take_left' (by simp; omega), List.take_of_length_le (by omega)]

example := C204_path_from_peer_violated ⟨⟨List.replicate 255 0#8, 0#8⟩, ⟨List.replicate 255 0#8, 0#8⟩, []⟩
  ⟨⟨[8, 6, 5, 1, 2, 3] ++ List.replicate 249 0#8, 2#8⟩, ⟨[3, 2, 1, 5, 6, 8] ++ List.replicate 249 0#8, 6#8⟩, []⟩
  [3#8, 2#8, 1#8, 5#8, 6#8, 8#8] (by unfold Path.Ok; decide +kernel) (by decide) (by decide) (by decide +kernel)

/-- C204: a frame written for a connection always announces 255 hops, whatever the length of the
path to the peer. -/
theorem C204_write_frame_violated (c : Connection) (packet f : Bytes) (n : Nat)
    (hc : c.pathToPeer.Ok) (h : c.writeFrame packet = some (f, n)) :
    hopCount f = some 255#8 ∧ n = 2 := by
  unfold Path.Ok at hc
  match packet with
  | [] => simp [Connection.writeFrame, init, setFrameType, setAt] at h
  | [_] => simp [Connection.writeFrame, init, setFrameType, setHopCount, setAt] at h
  | [_, _] => simp [Connection.writeFrame, init, setFrameType, setHopCount, setPath, onSliceFrom,
      sliceFrom, setAt, frameFixedLength] at h
  | x :: y :: z :: r =>
    have hi : init (x :: y :: z :: r) c.pathToPeer.path
        = some (frameTypeChapar :: 255#8 :: z :: goCopy r c.pathToPeer.path) := by
      simp [init, setFrameType, setHopCount, setPath, onSliceFrom, sliceFrom, setAt, frameFixedLength, hc]
    rw [Connection.writeFrame, hi, Option.bind_some] at h
    have hh : hopCount (frameTypeChapar :: 255#8 :: z :: goCopy r c.pathToPeer.path) = some 255#8 := rfl
    rw [frameLen, hh] at h
    simp [frameFixedLength] at h
    rw [← h.1, ← h.2]
    exact ⟨hh, rfl⟩

example : ∃ c : Connection, c.pathToPeer.Ok ∧ (c.writeFrame (List.replicate 300 0#8)).isSome :=
  ⟨⟨⟨List.replicate 255 0#8, 2#8⟩, ⟨[], 0#8⟩, []⟩, List.length_replicate, by decide +kernel⟩

/-- Specification: no path is known twice: the alternatives differ from each other and from the path
in use. -/
def Distinct (c : Connection) : Prop :=
  (c.pathToPeer :: c.alternativePaths).Pairwise fun p q => p.path ≠ q.path

/-- C77: adding alternatives keeps the paths distinct; an addition fails exactly when the path is
already known, and then changes nothing; otherwise it is appended. -/
theorem C77_set_alternative (c : Connection) (p : Path) (hd : Distinct c) :
    Distinct (c.setAlternativePath p).1 ∧
    ((c.setAlternativePath p).2 = none ↔
      ∀ q ∈ c.pathToPeer :: c.alternativePaths, q.path ≠ p.path) ∧
    ((c.setAlternativePath p).2 ≠ none → (c.setAlternativePath p).1 = c) ∧
    ((c.setAlternativePath p).2 = none →
      (c.setAlternativePath p).1.alternativePaths = c.alternativePaths ++ [p]) := by
  rw [Connection.setAlternativePath]
  split
  · next h =>
    refine ⟨hd, ?_, fun _ => rfl, fun h => by simp at h⟩
    simp [h]
  · next h =>
    split
    · next h2 =>
      refine ⟨hd, ?_, fun _ => rfl, fun h => by simp at h⟩
      simp at h2
      obtain ⟨q, hq, hqp⟩ := h2
      simp only [List.mem_cons, forall_eq_or_imp, false_iff, not_and, reduceCtorEq]
      intro _ hall
      exact hall q hq hqp
    · next h2 =>
      simp at h2
      refine ⟨?_, ?_, fun h => absurd rfl h, fun _ => rfl⟩
      · simp only [Distinct, ← List.cons_append] at hd ⊢
        rw [List.pairwise_append]
        refine ⟨hd, by simp, ?_⟩
        intro a ha b hb
        simp only [List.mem_singleton] at hb
        subst hb
        rcases List.mem_cons.1 ha with rfl | ha
        · exact h
        · exact h2 a ha
      · simp only [List.mem_cons, forall_eq_or_imp, true_iff]
        exact ⟨h, h2⟩

example := C77_set_alternative ⟨⟨[1#8], 1#8⟩, ⟨[], 0#8⟩, [⟨[2#8], 1#8⟩]⟩ ⟨[3#8], 1#8⟩ (by simp [Distinct])

/-- C77: for every history of additions. -/
theorem C77_alternatives_distinct (c : Connection) (hd : Distinct c) (ps : List Path) :
    Distinct (ps.foldl (fun c p => (c.setAlternativePath p).1) c) := by
  induction ps generalizing c with
  | nil => exact hd
  | cons p ps ih => exact ih _ (C77_set_alternative c p hd).1

example : Distinct ⟨⟨[1], 1#8⟩, ⟨[], 0#8⟩, [⟨[2], 1#8⟩]⟩ := by
  simp [Distinct]

/-- C204: changing to an alternative keeps the path that was in use: it takes the place of the alternative, the others stay,
and so does the path from the peer; it fails for a number no alternative has.
Missing: the path that is used from then on (refuted: `C204_change_path_violated`). -/
theorem C204_change_path_partial (c : Connection) (i : Nat) :
    (∀ c', c.changePath i = some c' → c'.alternativePaths = c.alternativePaths.set i c.pathToPeer ∧
      c'.alternativePaths.length = c.alternativePaths.length ∧ c'.pathFromPeer = c.pathFromPeer) ∧
    (c.alternativePaths.length ≤ i → c.changePath i = none) ∧
    (i < c.alternativePaths.length → c.pathFromPeer.Ok → (∀ a ∈ c.alternativePaths, a.Ok) → 2 ≤ c.pathFromPeer.len.toNat →
      (c.changePath i).isSome = true) := by
  refine ⟨fun c' h => ?_, fun h => ?_, fun h hf ha hn => ?_⟩
  · rw [Connection.changePath] at h
    obtain ⟨alt, _, h⟩ := Option.bind_eq_some_iff.1 h
    obtain ⟨r, _, h⟩ := Option.bind_eq_some_iff.1 h
    obtain ⟨alts, hs, rfl⟩ := Option.map_eq_some_iff.1 h
    unfold setAt at hs
    split at hs
    · cases hs; simp
    · cases hs
  · rw [Connection.changePath, List.getElem?_eq_none h]; rfl
  · obtain ⟨r, hr, -⟩ := C36_content_partial c.pathFromPeer c.alternativePaths[i] hf (ha _ (List.getElem_mem h)) hn
    simp [Connection.changePath, List.getElem?_eq_getElem h, hr, setAt, h]

/-- C204: changing to an alternative path does not use it: the new path to the peer begins with the
reverse of the path from the peer, for every alternative chosen. -/
theorem C204_change_path_violated (c c' : Connection) (i : Nat) (hf : c.pathFromPeer.Ok)
    (ha : ∀ a ∈ c.alternativePaths, a.Ok) (hn : 2 ≤ c.pathFromPeer.len.toNat)
    (h : c.changePath i = some c') :
    c'.pathToPeer.path.take c.pathFromPeer.len.toNat
      = (c.pathFromPeer.path.take c.pathFromPeer.len.toNat).reverse := by
  rw [Connection.changePath] at h
  obtain ⟨alt, halt, h⟩ := Option.bind_eq_some_iff.1 h
  obtain ⟨r, hr, h⟩ := Option.bind_eq_some_iff.1 h
  obtain ⟨alts, _, h⟩ := Option.map_eq_some_iff.1 h
  obtain ⟨r', h1, h2, _⟩ := C36_content_partial c.pathFromPeer alt hf
    (ha alt (List.mem_of_getElem? halt)) hn
  rw [hr] at h1
  have : r = r' := by injection h1
  subst this
  have := c.pathFromPeer.len.isLt
  unfold Path.Ok at hf
  rw [← h]
  simp only [h2]
  rw [List.take_left' (by simp; omega)]

example := C204_change_path_violated ⟨⟨List.replicate 255 0#8, 2#8⟩, ⟨[4#8, 5#8] ++ List.replicate 253 0#8, 2#8⟩,
    [⟨[6#8, 7#8] ++ List.replicate 253 0#8, 2#8⟩]⟩
  ⟨⟨[5#8, 4#8] ++ List.replicate 253 0#8, 0#8⟩, ⟨[4#8, 5#8] ++ List.replicate 253 0#8, 2#8⟩, [⟨List.replicate 255 0#8, 2#8⟩]⟩
  0 (by unfold Path.Ok; decide +kernel) (by unfold Path.Ok; decide +kernel) (by decide) (by decide +kernel)

example := (C204_change_path_partial ⟨⟨List.replicate 255 0#8, 2#8⟩, ⟨[4#8, 5#8] ++ List.replicate 253 0#8, 2#8⟩,
    [⟨[6#8, 7#8] ++ List.replicate 253 0#8, 2#8⟩]⟩ 0).2.2 (by decide) (by unfold Path.Ok; decide +kernel) (by unfold Path.Ok; decide +kernel) (by decide)

end Memar.Chapar
