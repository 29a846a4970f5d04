import Verif.Shared.Buffer

/-!
# What was taken out of a buffer (C284)

Specification: a slice somebody holds stays as it was when the bytes it shows are the same before and after (`bytesOf`); the free room of
a buffer are the addresses behind its length up to its capacity.
-/

namespace Memar.Shared
open Memar.Convert

/-- Specification: the address lies in the room behind the bytes of the buffer, where the next writes go. -/
def Spec.inRoom (b : Flat) (x : Nat) : Prop := ∃ s, b.buf = some s ∧ s.data + s.len ≤ x ∧ x < s.data + s.cap

/-- Specification: calls that only add to a buffer. -/
def Spec.adds : BOp → Prop
  | .write _ | .writeByte _ | .grow _ => True
  | .growLen n => 0 ≤ n
  | .set _ | .reset => False

/-- Running calls on the buffer that has an array of its own. -/
def BOp.runsOwn (extra : Nat → Nat → Nat) (h : Heap) : Buffer.Flat → List BOp → Option Buffer.Flat
  | b, [] => some b
  | b, o :: os => (o.runOwn extra h b).bind fun c => BOp.runsOwn extra h c os

theorem run_adds (extra : Nat → Nat → Nat) (h : Heap) (b : Flat) (hb : b.Ok h) (op : BOp) (ha : Spec.adds op) :
    ∃ w, op.run extra (h, b) = some w ∧ w.2.Ok w.1 ∧ h.next ≤ w.1.next ∧
      (∀ x, x < h.next → ¬ Spec.inRoom b x → w.1.cells x = h.cells x) ∧
      (∀ x, x < h.next → Spec.inRoom w.2 x → Spec.inRoom b x) := by
  have app : ∀ p : Bytes, ∃ w, some ((append extra h b.buf p).1, ({ b with buf := (append extra h b.buf p).2 } : Flat)) = some w ∧
      (∀ x, x < h.next → ¬ Spec.inRoom b x → w.1.cells x = h.cells x) ∧
      (∀ x, x < h.next → Spec.inRoom w.2 x → Spec.inRoom b x) := by
    intro p
    refine ⟨_, rfl, ?_, ?_⟩
    · intro x hx hr
      have := append_frame extra h b.buf p x 1 (by omega) (by
        intro t et hc
        have : ¬ (t.data + t.len ≤ x ∧ x < t.data + t.cap) := fun hh => hr ⟨t, et, hh⟩
        omega)
      have := (read_iff _ _ x 1).mp this 0 (by omega)
      simpa using this
    · intro x hx hr
      obtain ⟨t, et, h1, h2⟩ := hr
      cases hbuf : b.buf with
      | none =>
        simp only [hbuf, append] at et
        split at et
        · cases et
        · cases et; simp only [fresh] at h1; omega
      | some s =>
        simp only [hbuf, append] at et
        split at et
        · cases et; exact ⟨s, hbuf, by simp only at h1; omega, h2⟩
        · cases et; simp only [fresh] at h1; omega
  have fr : ∀ p n x, x < h.next → (fresh h p n).1.cells x = h.cells x := by
    intro p n x hx
    have := (read_iff _ _ x 1).mp (read_fresh_old h p n x 1 (by omega)) 0 (by omega)
    simpa using this
  have hok := run_ok extra h b hb op (by intro s e; subst e; exact ha.elim)
  have main : ∃ w, op.run extra (h, b) = some w ∧
      (∀ x, x < h.next → ¬ Spec.inRoom b x → w.1.cells x = h.cells x) ∧
      (∀ x, x < h.next → Spec.inRoom w.2 x → Spec.inRoom b x) := by
    cases op with
    | set s => exact ha.elim
    | reset => exact ha.elim
    | write p => exact app p
    | writeByte c => exact app [c]
    | grow n =>
      refine ⟨_, rfl, ?_⟩
      cases hbuf : b.buf with
      | none =>
        simp only [Flat.grow, hbuf, Flat.first]
        exact ⟨fun x hx _ => fr _ _ x hx, fun x hx ⟨t, et, h1, _⟩ => by cases et; simp only at h1; omega⟩
      | some s =>
        simp only [Flat.grow, hbuf]
        split
        · exact ⟨fun _ _ _ => rfl, fun x _ hr => hr⟩
        · exact ⟨fun x hx _ => fr _ _ x hx, fun x hx ⟨t, et, h1, _⟩ => by cases et; simp only at h1; omega⟩
    | growLen n =>
      simp only [Spec.adds] at ha
      simp only [BOp.run]
      cases hbuf : b.buf with
      | none =>
        simp only [Flat.growLen, hbuf, Option.map_some, Flat.first]
        exact ⟨_, rfl, fun x hx _ => fr _ _ x hx, fun x hx ⟨t, et, h1, _⟩ => by cases et; simp only at h1; omega⟩
      | some s =>
        simp only [Flat.growLen, hbuf]
        split
        · rw [if_neg (by omega)]
          simp only [Option.map_some]
          refine ⟨_, rfl, fun _ _ _ => rfl, fun x _ ⟨t, et, h1, h2⟩ => ?_⟩
          cases et
          exact ⟨s, hbuf, by simp only at h1; omega, h2⟩
        · simp only [Option.map_some]
          exact ⟨_, rfl, fun x hx _ => fr _ _ x hx, fun x hx ⟨t, et, h1, _⟩ => by cases et; simp only [] at h1; omega⟩
  obtain ⟨w, e, m1, m2⟩ := main
  exact ⟨w, e, (hok w e).1, (hok w e).2, m1, m2⟩

/-- **C284** the part that holds: any number of calls that only add to a buffer — writes, `Grow`, and `GrowLen` by a count that is not
negative — never panic and change no byte in use except in the room behind the bytes of the buffer. Missing: `Reset`, `GrowLen` by a negative
count, and who else refers to that room, see the `_violated` theorems. -/
theorem C284_only_its_room_partial (extra : Nat → Nat → Nat) (h : Heap) (b : Flat) (hb : b.Ok h) (ops : List BOp)
    (ha : ∀ o ∈ ops, Spec.adds o) :
    ∃ w, BOp.runs extra (h, b) ops = some w ∧ w.2.Ok w.1 ∧ ∀ x, x < h.next → ¬ Spec.inRoom b x → w.1.cells x = h.cells x := by
  induction ops generalizing h b with
  | nil => exact ⟨(h, b), rfl, hb, fun _ _ _ => rfl⟩
  | cons o os ih =>
    obtain ⟨v, e, k1, k2, k3, k4⟩ := run_adds extra h b hb o (ha o (by simp))
    obtain ⟨w, e', l1, l2⟩ := ih v.1 v.2 k1 fun o' ho => ha o' (by simp [ho])
    refine ⟨w, by simp only [BOp.runs, e, Option.bind_some]; exact e', l1, fun x hx hr => ?_⟩
    rw [l2 x (by omega) fun hr' => hr (k4 x hx hr'), k3 x hx hr]

/-- A buffer over the first four of ten bytes. -/
def demoBuf : Flat := ⟨some ⟨0, 4, 10⟩, 0⟩

theorem demo_ok : demoBuf.Ok demo := fun s e => by cases e; exact ⟨by decide, by decide⟩

example : demoBuf.Ok demo ∧ (∀ o ∈ [BOp.write [7, 7], .grow 3, .growLen 2, .writeByte 1], Spec.adds o) ∧
    ((BOp.runs (fun _ _ => 3) (demo, demoBuf) [BOp.write [7, 7], .grow 3, .growLen 2, .writeByte 1]).map fun w => shown w.1 w.2.buf) =
      some [0, 1, 2, 3, 7, 7, 6, 7, 1] := by
  refine ⟨demo_ok, ?_, by decide +kernel⟩
  intro o ho
  simp only [List.mem_cons, List.mem_nil_iff, or_false] at ho
  rcases ho with rfl | rfl | rfl | rfl <;> simp [Spec.adds]

/-- **C284** the part that holds: the bytes taken out of a buffer stay as they are while the buffer is only added to. Missing: `Reset`
followed by a write changes them, see `C284_reset_violated`. -/
theorem C284_taken_kept_partial (extra : Nat → Nat → Nat) (h : Heap) (b : Flat) (hb : b.Ok h) (s : SliceHeader) (hs : b.bytes = some s)
    (ops : List BOp) (ha : ∀ o ∈ ops, Spec.adds o) :
    ∃ w, BOp.runs extra (h, b) ops = some w ∧ bytesOf w.1 s = bytesOf h s := by
  obtain ⟨w, e, _, hk⟩ := C284_only_its_room_partial extra h b hb ops ha
  refine ⟨w, e, read_congr _ _ _ _ fun k hlt => hk _ ?_ ?_⟩
  · obtain ⟨_, _⟩ := hb s hs; omega
  · rintro ⟨t, et, h1, _⟩
    rw [show b.buf = b.bytes from rfl, hs] at et
    cases et; omega

example : demoBuf.Ok demo ∧ demoBuf.bytes = some ⟨0, 4, 10⟩ ∧
    ((BOp.runs (fun _ _ => 3) (demo, demoBuf) [BOp.write [7, 7], .growLen 9, .writeByte 1]).map fun w => bytesOf w.1 ⟨0, 4, 10⟩) =
      some [0, 1, 2, 3] := ⟨demo_ok, rfl, by decide +kernel⟩

/-- **C284** the part that holds: bytes of somebody else stay as they are while a buffer is only added to, when they lie away from the room
behind the bytes of the buffer. Missing: bytes inside that room, see `C284_behind_violated`. -/
theorem C284_others_kept_partial (extra : Nat → Nat → Nat) (h : Heap) (b : Flat) (hb : b.Ok h) (s t : SliceHeader) (hs : b.buf = some s)
    (ht : Held h t) (hd : t.data + t.len ≤ s.data + s.len ∨ s.data + s.cap ≤ t.data) (ops : List BOp) (ha : ∀ o ∈ ops, Spec.adds o) :
    ∃ w, BOp.runs extra (h, b) ops = some w ∧ bytesOf w.1 t = bytesOf h t := by
  obtain ⟨w, e, _, hk⟩ := C284_only_its_room_partial extra h b hb ops ha
  refine ⟨w, e, read_congr _ _ _ _ fun k hlt => hk _ ?_ ?_⟩
  · have := ht.1; have := ht.2; omega
  · rintro ⟨u, eu, h1, h2⟩
    rw [hs] at eu
    cases eu; omega

example : (⟨some ⟨0, 2, 5⟩, 0⟩ : Flat).Ok demo ∧ Held demo ⟨5, 3, 5⟩ ∧
    ((BOp.runs (fun _ _ => 3) (demo, ⟨some ⟨0, 2, 5⟩, 0⟩) [BOp.write [7, 7, 7], .writeByte 1]).map fun w => bytesOf w.1 ⟨5, 3, 5⟩) =
      some [5, 6, 7] := ⟨fun s e => by cases e; exact ⟨by decide, by decide⟩, ⟨by decide, by decide⟩, by decide +kernel⟩

/-- C284 violated: after `Reset` the next write goes over the bytes that were taken out before: whoever still holds them reads the new bytes
in front of what is left of the old ones. -/
theorem C284_reset_violated (extra : Nat → Nat → Nat) (h : Heap) (b : Flat) (s : SliceHeader) (hs : b.bytes = some s) (hl : s.len ≤ s.cap) (p : Bytes)
    (hp : p.length ≤ s.len) :
    ∃ w, BOp.runs extra (h, b) [.reset, .write p] = some w ∧ bytesOf w.1 s = p ++ (bytesOf h s).drop p.length := by
  have hs' : b.buf = some s := hs
  simp only [BOp.runs, BOp.run, Option.bind_some, Flat.reset, hs', Option.map_some, Flat.write, append, Nat.zero_add, Nat.add_zero,
    if_pos (Nat.le_trans hp hl), Option.some.injEq, exists_eq_left']
  simp only [bytesOf]
  have := read_put_inside h s.data s.len 0 p (by omega)
  rw [Nat.add_zero] at this
  rw [this, read_drop _ _ _ _ hp]
  simp [read]

example : demoBuf.bytes = some ⟨0, 4, 10⟩ ∧
    ((BOp.runs (fun _ _ => 3) (demo, demoBuf) [.reset, .write [9, 9]]).map fun w => bytesOf w.1 ⟨0, 4, 10⟩) = some [9, 9, 2, 3] :=
  ⟨rfl, by decide +kernel⟩

/-- C284 violated: `GrowLen` accepts a negative count and takes the last bytes back, and the next write goes over them. -/
theorem C284_taken_back_violated (extra : Nat → Nat → Nat) (h : Heap) (b : Flat) (s : SliceHeader) (hs : b.bytes = some s) (hl : s.len ≤ s.cap)
    (p : Bytes) (hp : p.length ≤ s.len) :
    ∃ w, BOp.runs extra (h, b) [.growLen (-(p.length : Int)), .write p] = some w ∧
      bytesOf w.1 s = (bytesOf h s).take (s.len - p.length) ++ p := by
  have hs' : b.buf = some s := hs
  have e1 : ((s.len : Int) + -(p.length : Int)).toNat = s.len - p.length := by omega
  simp only [BOp.runs, BOp.run, Flat.growLen, hs', if_pos (show -(p.length : Int) ≤ (s.cap : Int) - s.len by omega),
    if_neg (show ¬ (s.len : Int) + -(p.length : Int) < 0 by omega), e1, Option.map_some, Option.bind_some, Flat.write, append,
    if_pos (show s.len - p.length + p.length ≤ s.cap by omega), Option.some.injEq, exists_eq_left', bytesOf]
  rw [read_put_inside _ _ _ _ _ (by omega), read_take _ _ _ _ (by omega)]
  simp [read, Nat.sub_sub_self hp]

example : demoBuf.bytes = some ⟨0, 4, 10⟩ ∧
    ((BOp.runs (fun _ _ => 3) (demo, demoBuf) [.growLen (-2), .write [9, 9]]).map fun w => bytesOf w.1 ⟨0, 4, 10⟩) = some [0, 1, 9, 9] :=
  ⟨rfl, by decide +kernel⟩

/-- **C284** the part that holds: exactly when the bytes taken out survive `Reset` and a write that fits the capacity: when what is
written agrees with them as far as both go. Missing: everything else. -/
theorem C284_reset_exact_partial (extra : Nat → Nat → Nat) (h : Heap) (b : Flat) (s : SliceHeader) (hs : b.bytes = some s) (hl : s.len ≤ s.cap)
    (p : Bytes) (hp : p.length ≤ s.cap) (w : Heap × Flat) (hw : BOp.runs extra (h, b) [.reset, .write p] = some w) :
    bytesOf w.1 s = bytesOf h s ↔ ∀ i, i < p.length → i < s.len → p[i]? = (bytesOf h s)[i]? := by
  have hs' : b.buf = some s := hs
  simp only [BOp.runs, BOp.run, Option.bind_some, Flat.reset, hs', Option.map_some, Flat.write, append, Nat.zero_add, Nat.add_zero,
    if_pos hp, Option.some.injEq] at hw
  subst hw
  simp only [bytesOf, read_iff, read_getElem?]
  constructor
  · intro hh i h1 h2
    have := hh i h2
    rw [put_cells, if_pos (by omega), show s.data + i - s.data = i by omega] at this
    rw [if_pos h2, ← this]
    simp [List.getD, h1]
  · intro hh k hk
    rw [put_cells]
    split
    · next hc =>
      have := hh k (by omega) hk
      rw [if_pos hk] at this
      rw [show s.data + k - s.data = k by omega]
      simp [List.getD, this]
    · rfl

example : demoBuf.bytes = some ⟨0, 4, 10⟩ ∧
    ((BOp.runs (fun _ _ => 3) (demo, demoBuf) [.reset, .write [0, 1, 2, 3, 9]]).map fun w => bytesOf w.1 ⟨0, 4, 10⟩) = some [0, 1, 2, 3] :=
  ⟨rfl, by decide +kernel⟩

/-- **C284** the part that holds: when what is written after `Reset` does not fit the capacity, the buffer moves and the bytes taken out
before stay. Missing: the writes that fit, see `C284_reset_violated`. -/
theorem C284_reset_moves_partial (extra : Nat → Nat → Nat) (h : Heap) (b : Flat) (hb : b.Ok h) (s : SliceHeader) (hs : b.bytes = some s)
    (p : Bytes) (hp : s.cap < p.length) :
    ∃ w, BOp.runs extra (h, b) [.reset, .write p] = some w ∧ bytesOf w.1 s = bytesOf h s ∧ shown w.1 w.2.bytes = p := by
  have hs' : b.buf = some s := hs
  obtain ⟨h1, h2⟩ := hb s hs'
  simp only [BOp.runs, BOp.run, Option.bind_some, Flat.reset, hs', Option.map_some, Flat.write, append, Nat.zero_add, Nat.add_zero,
    if_neg (Nat.not_le.mpr hp), Option.some.injEq, exists_eq_left', Flat.bytes, shown]
  exact ⟨read_fresh_old _ _ _ _ _ (by omega), by rw [bytesOf_fresh]; simp [bytesOf, read]⟩

example : demoBuf.Ok demo ∧
    ((BOp.runs (fun _ _ => 3) (demo, demoBuf) [.reset, .write [5, 5, 5, 5, 5, 5, 5, 5, 5, 5, 5]]).map fun w => bytesOf w.1 ⟨0, 4, 10⟩) =
      some [0, 1, 2, 3] := ⟨demo_ok, by decide +kernel⟩

/-- C284 violated: a buffer started with the front of a longer slice writes over the rest of it as long as it fits: the owner of the slice
finds their bytes replaced. -/
theorem C284_behind_violated (extra : Nat → Nat → Nat) (h : Heap) (b : Flat) (t : SliceHeader) (ht : t.len ≤ t.cap) (k : Nat) (p : Bytes)
    (hk : k + p.length ≤ t.len) :
    ∃ w, BOp.runs extra (h, b) [.set ⟨t.data, k, t.cap⟩, .write p] = some w ∧
      bytesOf w.1 t = (bytesOf h t).take k ++ p ++ (bytesOf h t).drop (k + p.length) := by
  simp only [BOp.runs, BOp.run, Option.bind_some, Flat.set, Flat.write, append, if_pos (Nat.le_trans hk ht), Option.some.injEq, exists_eq_left',
    bytesOf]
  rw [read_put_inside _ _ _ _ _ hk, read_take _ _ _ _ (by omega), read_drop _ _ _ _ hk, Nat.add_assoc, Nat.sub_sub]

example : ((BOp.runs (fun _ _ => 3) (demo, ⟨none, 0⟩) [.set ⟨0, 2, 10⟩, .write [9, 9, 9]]).map fun w => bytesOf w.1 ⟨0, 6, 10⟩) =
    some [0, 1, 9, 9, 9, 5] := by decide +kernel

/-- C284 violated: a store into the bytes taken out shows in the buffer. -/
theorem C284_store_violated (h : Heap) (b : Flat) (s : SliceHeader) (hs : b.bytes = some s) (i : Nat) (hi : i < s.len) (c : Byte) :
    shown (put h (s.data + i) [c]) b.bytes = (shown h b.bytes).set i c := by
  simp only [hs, shown, bytesOf]
  rw [read_put_inside _ _ _ _ _ (by simp; omega)]
  apply List.ext_getElem?
  intro j
  simp only [List.append_assoc, List.getElem?_append, read_length, List.length_cons, List.length_nil, List.getElem?_set, read_getElem?]
  by_cases h1 : j < i
  · rw [if_pos h1, if_pos h1, if_neg (by omega), if_pos (by omega)]
  · rw [if_neg h1]
    by_cases h2 : i = j
    · subst h2; simp [hi]
    · rw [if_neg (by omega), if_neg h2]
      by_cases h3 : j < s.len
      · rw [if_pos (by omega), if_pos h3]; congr 2; omega
      · rw [if_neg (by omega), if_neg h3]

example : shown (put demo 2 [9]) demoBuf.bytes = [0, 1, 9, 3] := by decide +kernel

/-- **C284** the part that holds: once a write did not fit the capacity, the buffer has an array of its own and stores into what was taken out
before do not show in it any more. Missing: before that they do, see `C284_store_violated`. -/
theorem C284_store_after_move_partial (extra : Nat → Nat → Nat) (h : Heap) (b : Flat) (hb : b.Ok h) (s : SliceHeader) (hs : b.bytes = some s)
    (p : Bytes) (hp : s.cap < s.len + p.length) (i : Nat) (hi : i < s.len) (c : Byte) :
    ∃ w, BOp.runs extra (h, b) [.write p] = some w ∧ shown (put w.1 (s.data + i) [c]) w.2.bytes = bytesOf h s ++ p := by
  have hs' : b.buf = some s := hs
  obtain ⟨h1, h2⟩ := hb s hs'
  simp only [BOp.runs, BOp.run, Option.bind_some, hs', Flat.write, append, if_neg (Nat.not_le.mpr hp), Option.some.injEq, exists_eq_left',
    Flat.bytes, shown]
  have := bytesOf_fresh h (bytesOf h s ++ p) (extra s.cap (s.len + p.length))
  simp only [bytesOf] at this ⊢
  rw [read_put_apart _ _ _ _ _ (by right; simp only [fresh, List.length_cons, List.length_nil]; omega)]
  exact this

example : demoBuf.Ok demo ∧
    ((BOp.runs (fun _ _ => 3) (demo, demoBuf) [.write [5, 5, 5, 5, 5, 5, 5]]).map fun w => shown (put w.1 2 [9]) w.2.bytes) =
      some [0, 1, 2, 3, 5, 5, 5, 5, 5, 5, 5] := ⟨demo_ok, by decide +kernel⟩

/-- **C284** the part that holds: as long as nobody else writes to the memory, a buffer behaves exactly as if it had an array of its
own, through every call and every panic. Missing: the stores of others. -/
theorem C284_as_if_own_partial (extra : Nat → Nat → Nat) (h : Heap) (b : Flat) (hb : b.Ok h) (ops : List BOp) (hset : ∀ o ∈ ops, ∀ s, o ≠ .set s) :
    (BOp.runs extra (h, b) ops).map (fun w => w.2.view w.1) = BOp.runsOwn extra h (b.view h) ops := by
  have ind : ∀ g c, Flat.Ok g c → (BOp.runs extra (g, c) ops).map (fun w => w.2.view w.1) = BOp.runsOwn extra h (c.view g) ops := by
    induction ops with
    | nil => intro g c _; rfl
    | cons o os ih =>
      intro g c hc
      have hne := hset o (by simp)
      have hv := run_view extra g c hc o
      have hown : o.runOwn extra g (c.view g) = o.runOwn extra h (c.view g) := by
        cases o with
        | set s => exact absurd rfl (hne s)
        | _ => rfl
      rw [hown] at hv
      simp only [BOp.runs, BOp.runsOwn, ← hv]
      cases e : o.run extra (g, c) with
      | none => rfl
      | some w =>
        have := run_ok extra g c hc o (fun s es => absurd es (hne s)) w e
        simp only [Option.bind_some, Option.map_some]
        exact ih (fun o' ho => hset o' (by simp [ho])) w.1 w.2 this.1
  exact ind h b hb

example : demoBuf.Ok demo ∧
    BOp.runsOwn (fun _ _ => 3) demo (demoBuf.view demo) [.write [7, 7], .reset, .growLen 2, .grow 20] =
      some ⟨some ⟨[0, 1] ++ List.replicate 38 0, 2⟩, 0⟩ := ⟨demo_ok, by decide +kernel⟩

end Memar.Shared
