import Verif.Buffer.Model
import Verif.BaseLemmas

/-!
# Properties of the flat buffer (C25, C72)
-/

namespace Memar.Buffer

/-! ## A history of writes -/

/-- What a writer does. -/
inductive Op
  | write (p : Bytes)
  | writeByte (c : Byte)
  | grow (n : Int)
deriving DecidableEq, Repr

/-- The bytes an operation adds, from its English description. -/
def Op.adds : Op → Bytes
  | .write p => p
  | .writeByte c => [c]
  | .grow _ => []

/-- Running an operation. -/
def Op.run (extra : Nat → Nat → Nat) (b : Flat) : Op → Flat
  | .write p => (Buffer.write extra b p).2
  | .writeByte c => Buffer.writeByte extra b c
  | .grow n => Buffer.grow b n

def runOps (extra : Nat → Nat → Nat) (b : Flat) (ops : List Op) : Flat :=
  ops.foldl (Op.run extra) b

theorem append_some (extra : Nat → Nat → Nat) (s : Slice) (hs : s.len ≤ s.arr.length) (p : Bytes) :
    ∃ t, append extra (some s) p = some t ∧ t.data = s.data ++ p ∧ t.len ≤ t.arr.length := by
  simp only [append]
  split
  · next h =>
    refine ⟨_, rfl, ?_, ?_⟩
    · simp only [Slice.data]
      rw [List.take_append_of_le_length (by simp; omega)]
      rw [List.take_of_length_le (by simp; omega)]
    · simp; omega
  · refine ⟨_, rfl, ?_, ?_⟩
    · simp only [Slice.data]
      rw [List.take_append_of_le_length (by simp; omega)]
      rw [List.take_of_length_le (by simp; omega)]
    · simp [Slice.data]; omega

theorem append_spec (extra : Nat → Nat → Nat) (b : Flat) (hb : b.Wf) (p : Bytes) :
    bytes { b with buf := append extra b.buf p } = bytes b ++ p ∧
    ({ b with buf := append extra b.buf p } : Flat).Wf := by
  cases h : b.buf with
  | none =>
    by_cases hp : p = []
    · subst hp; simp [append, bytes, Flat.Wf, h]
    · simp only [append, bytes, Flat.Wf, if_neg hp]
      refine ⟨by simp [Slice.data, h], ?_⟩
      intro s hs; cases hs; simp
  | some s =>
    obtain ⟨t, h1, h2, h3⟩ := append_some extra s (hb s h) p
    simp only [h1, bytes, h, Flat.Wf]
    exact ⟨h2, fun u e => by cases e; exact h3⟩

theorem take_goCopy_replicate (d : Bytes) (m : Nat) (h : d.length ≤ m) :
    (goCopy (List.replicate m 0#8) d).take d.length = d ∧
    (goCopy (List.replicate m 0#8) d).length = m := by
  unfold goCopy
  constructor
  · rw [List.take_append_of_le_length (by simp; omega)]
    rw [List.length_replicate, List.take_of_length_le h, List.take_length]
  · simp; omega

theorem grow_spec (b : Flat) (hb : b.Wf) (n : Int) :
    bytes (grow b n) = bytes b ∧ (grow b n).Wf ∧ blen (grow b n) = blen b := by
  cases h : b.buf with
  | none =>
    simp only [grow, h, bytes, Flat.Wf, blen]
    refine ⟨by simp [Slice.data], fun s e => ?_, trivial⟩
    cases e; simp
  | some s =>
    have hs := hb s h
    simp only [grow, h]
    split
    · exact ⟨rfl, hb, rfl⟩
    · next hn =>
      have hd : s.data.length = s.len := by simp [Slice.data]; omega
      obtain ⟨h1, h2⟩ := take_goCopy_replicate s.data (2 * (s.arr.length : Int) + n).toNat
        (by omega)
      rw [hd] at h1
      refine ⟨?_, fun t e => ?_, by simp [blen, h]⟩
      · simp only [bytes, h]
        exact h1
      · cases e; simp only; rw [h2]; omega

theorem run_spec (extra : Nat → Nat → Nat) (b : Flat) (hb : b.Wf) (op : Op) :
    bytes (op.run extra b) = bytes b ++ op.adds ∧ (op.run extra b).Wf := by
  cases op with
  | write p => exact append_spec extra b hb p
  | writeByte c => exact append_spec extra b hb [c]
  | grow n => have := grow_spec b hb n; simp [Op.run, Op.adds, this.1, this.2.1]

/-- C25: after any sequence of writes (with reallocations by `append` or `Grow` in between, whatever
capacity the runtime chooses) the buffer holds its initial content followed by everything written,
in order. -/
theorem C25_writes_append (extra : Nat → Nat → Nat) (b : Flat) (hb : b.Wf) (ops : List Op) :
    bytes (runOps extra b ops) = bytes b ++ (ops.map Op.adds).flatten := by
  suffices h : bytes (runOps extra b ops) = bytes b ++ (ops.map Op.adds).flatten ∧
      (runOps extra b ops).Wf from h.1
  induction ops generalizing b with
  | nil => simp [runOps, hb]
  | cons op t ih =>
    obtain ⟨h1, h2⟩ := run_spec extra b hb op
    obtain ⟨h3, h4⟩ := ih (op.run extra b) h2
    refine ⟨?_, h4⟩
    show bytes (runOps extra (op.run extra b) t) = _
    rw [h3, h1]; simp

example := C25_writes_append (fun _ _ => 3) ⟨some ⟨[1#8, 2#8, 9#8, 9#8], 2⟩, 1⟩ (fun s h => by cases h; decide)
  [.write [3#8, 4#8, 5#8], .writeByte 6#8]

/-- C25: each write reports that everything was written. -/
theorem C25_write_reports_all (extra : Nat → Nat → Nat) (b : Flat) (p : Bytes) :
    (write extra b p).1 = p.length := rfl

example : bytes (runOps (fun _ _ => 3) ⟨some ⟨[1#8, 2#8, 9#8], 2⟩, 0⟩
    [.write [3#8, 4#8], .grow 7, .writeByte 5#8, .write []]) = [1#8, 2#8, 3#8, 4#8, 5#8] := by
  decide +kernel

/-- C25: `Reset` empties the buffer. -/
theorem C25_reset (b : Flat) : bytes (reset b) = [] ∧ lenOfUnread (reset b) = 0 := by
  cases h : b.buf <;> simp [reset, bytes, h, lenOfUnread, blen, Slice.data]

/-! ## Reading -/

/-- C184 is violated: `Read` on a buffer with unread data returns no bytes, whatever the
destination, and leaves destination and buffer as they were. -/
theorem C184_read_returns_nothing_violated (b : Flat) (hb : b.Wf) (hoff : b.off ≤ blen b)
    (p : Bytes) : read b p = some (0, p, b) := by
  have hcap : blen b ≤ cap b := by
    cases h : b.buf with
    | none => simp [blen, cap, h]
    | some s => have := hb s h; simp [blen, cap, h, this]
  have hn : readLen b = 0 := by
    unfold readLen; rw [if_neg (by omega)]
  have ht : ((b.off : Int) + 0).toNat = b.off := by omega
  have hr : region b b.off b.off = [] := by
    unfold region
    split
    · rfl
    · exact List.drop_eq_nil_of_le (by simp; omega)
  simp only [read, hn, ht, hr]
  rw [if_pos (by omega)]
  simp [goCopy]

example : (⟨some ⟨[1#8, 2#8], 2⟩, 0⟩ : Flat).Wf ∧ lenOfUnread ⟨some ⟨[1#8, 2#8], 2⟩, 0⟩ = 2 := by
  refine ⟨fun s e => ?_, by decide⟩
  cases e; decide

/-- Reading byte by byte, `n` times. -/
def readBytes (b : Flat) : Nat → Option (Bytes × Flat)
  | 0 => some ([], b)
  | n + 1 =>
    match readByte b with
    | none => none
    | some (c, b') =>
      match readBytes b' n with
      | none => none
      | some (cs, b'') => some (c :: cs, b'')

/-- C184, what holds: reading byte by byte returns the unread bytes in order, for all but the last.
Missing: the last byte, reading into a slice, and reading after Set (refuted:
`C184_read_returns_nothing_violated`, `C184_last_byte_unreadable_violated`,
`C184_read_at_violated` and others). -/
theorem C184_read_byte_partial (b : Flat) (hb : b.Wf) (n : Nat) (hn : b.off + n < blen b) :
    readBytes b n = some (((bytes b).drop b.off).take n, { b with off := b.off + n }) := by
  have hlen : (bytes b).length = blen b := by
    cases h : b.buf with
    | none => simp [bytes, blen, h]
    | some s => have := hb s h; simp [bytes, blen, h, Slice.data, this]
  induction n generalizing b with
  | zero => simp [readBytes]
  | succ n ih =>
    have hlt : b.off < (bytes b).length := by omega
    have e1 : readByte b = some ((bytes b)[b.off], { b with off := b.off + 1 }) := by
      simp only [readByte]
      rw [if_pos (by omega), List.getElem?_eq_getElem hlt]
    simp only [readBytes, e1]
    rw [ih { b with off := b.off + 1 } hb (by show b.off + 1 + n < blen b; omega) hlen]
    have hb2 : bytes { b with off := b.off + 1 } = bytes b := rfl
    simp only [hb2, Option.some.injEq, Prod.mk.injEq]
    constructor
    · rw [List.drop_eq_getElem_cons hlt, List.take_succ_cons]
    · have : b.off + 1 + n = b.off + (n + 1) := by omega
      rw [this]

example := C184_read_byte_partial ⟨some ⟨[1#8, 2#8, 3#8, 9#8], 3⟩, 1⟩ (fun s h => by cases h; decide) 1 (by decide)

/-- C184 is violated: the last unread byte cannot be read by `ReadByte`; it returns zero without an
error and does not move. -/
theorem C184_last_byte_unreadable_violated (b : Flat) (h : b.off + 1 = blen b) :
    readByte b = some (0#8, b) := by
  simp only [readByte]
  rw [if_neg (by omega)]

example : readBytes ⟨some ⟨[7#8, 8#8, 9#8], 3⟩, 0⟩ 3
    = some ([7#8, 8#8, 0#8], ⟨some ⟨[7#8, 8#8, 9#8], 3⟩, 2⟩) := by decide +kernel

/-- C184 is violated: `ReadAt` ignores the range it is asked for, returns nothing and marks
everything as read. -/
theorem C184_read_at_violated (b : Flat) (hb : b.Wf) (offset limit : Nat) :
    (readAt b offset limit).1 = [] ∧ lenOfUnread (readAt b offset limit).2 = 0 := by
  constructor
  · simp only [readAt]
    apply List.drop_eq_nil_of_le
    cases h : b.buf with
    | none => simp [bytes, h]
    | some s => simp [bytes, blen, h, Slice.data]; omega
  · simp only [readAt, lenOfUnread, blen]
    cases b.buf <;> simp

example := C184_read_at_violated ⟨some ⟨[1#8, 2#8, 3#8, 9#8], 3⟩, 1⟩ (fun s h => by cases h; decide) 0 2

/-- C184 is violated: setting a buffer shorter than what was already read makes `Read` panic. -/
theorem C184_set_then_read_violated (b : Flat) (s : Slice)
    (h : s.len < b.off) (p : Bytes) : read (set b (some s)) p = none := by
  have hn : readLen (set b (some s)) < 0 := by
    unfold readLen
    have h1 : blen (set b (some s)) = s.len := rfl
    have h2 : (set b (some s)).off = b.off := rfl
    rw [h1, h2, if_pos (by omega)]; omega
  unfold read
  rw [if_neg (by omega)]

example : read (set ⟨some ⟨[1#8, 2#8, 3#8], 3⟩, 2⟩ (some ⟨[9#8], 1⟩)) [0#8] = none :=
  C184_set_then_read_violated _ _ (by decide) _

/-! ## Growing -/

/-- C72: after `Grow(n)` there is room for `n` more bytes and the content is unchanged. -/
theorem C72_grow_makes_room (b : Flat) (hb : b.Wf) (n : Int) :
    bytes (grow b n) = bytes b ∧ (blen (grow b n) : Int) + n ≤ cap (grow b n) := by
  refine ⟨(grow_spec b hb n).1, ?_⟩
  cases h : b.buf with
  | none =>
    have hf : n ≤ firstSize n ∧ 0 ≤ firstSize n := by
      unfold firstSize smallBufferSize
      split <;> omega
    simp only [grow, h, blen, cap, List.length_replicate]
    omega
  | some s =>
    have hs := hb s h
    simp only [grow, h]
    split
    · simp only [blen, cap, h]; omega
    · next hn =>
      have hd : s.data.length = s.len := by simp [Slice.data]; omega
      obtain ⟨h1, h2⟩ := take_goCopy_replicate s.data (2 * (s.arr.length : Int) + n).toNat
        (by omega)
      simp only [blen, cap, h2]; omega

example := C72_grow_makes_room ⟨some ⟨[1#8, 2#8, 3#8, 9#8], 3⟩, 1⟩ (fun s h => by cases h; decide) 5

/-- C72: the capacity of a buffer: that of the slice it was given, and none before that; and how
`Grow` chooses it: not at all if there is room, at least 64 for a first allocation, twice the old
capacity and the asked for bytes otherwise. -/
theorem C72_capacity (b : Flat) (hb : b.Wf) (n : Int) (s : Slice) :
    cap (set b none) = 0 ∧ cap (set b (some s)) = s.arr.length ∧
    (b.buf = none → cap (grow b n) = (max 64 n).toNat ∧ blen (grow b n) = 0) ∧
    (b.buf ≠ none → (blen b : Int) + n ≤ cap b → grow b n = b) ∧
    (b.buf ≠ none → (cap b : Int) < blen b + n → (cap (grow b n) : Int) = 2 * cap b + n) := by
  refine ⟨rfl, rfl, ?_, ?_, ?_⟩
  · intro h
    have hf : firstSize n = max 64 n := by
      unfold firstSize smallBufferSize
      split <;> omega
    simp only [grow, h, cap, blen, List.length_replicate, hf, and_self]
  · intro h hn
    cases hs : b.buf with
    | none => exact absurd hs h
    | some t =>
      simp only [blen, cap, hs] at hn
      simp only [grow, hs]
      rw [if_pos (by omega)]
  · intro h hn
    cases hs : b.buf with
    | none => exact absurd hs h
    | some t =>
      have hw := hb t hs
      have hd : t.data.length = t.len := by simp [Slice.data]; omega
      simp only [blen, cap, hs] at hn
      simp only [grow, hs]
      rw [if_neg (by omega)]
      have := (take_goCopy_replicate t.data (2 * (t.arr.length : Int) + n).toNat (by omega)).2
      simp only [cap, this, hs]
      omega

example := C72_capacity ⟨some ⟨[1#8, 2#8, 3#8, 9#8], 3⟩, 1⟩ (fun s h => by cases h; decide) 5 ⟨[7#8, 8#8], 1⟩

/-- C72: what `Grow` is for: once it has made room for `n` bytes, writing up to `n` bytes does not
allocate again, whatever `append` would allocate. -/
theorem C72_no_second_allocation (extra : Nat → Nat → Nat) (b : Flat) (hb : b.Wf) (n : Int) (p : Bytes)
    (hp : (p.length : Int) ≤ n) :
    cap (write extra (grow b n) p).2 = cap (grow b n) := by
  have hroom := (C72_grow_makes_room b hb n).2
  have hw := (grow_spec b hb n).2.1
  generalize grow b n = g at *
  cases hg : g.buf with
  | none =>
    have hp0 : p = [] := by
      simp only [blen, cap, hg] at hroom
      exact List.length_eq_zero_iff.mp (by omega)
    simp [write, append, hg, hp0, cap]
  | some t =>
    have ht := hw t hg
    simp only [blen, cap, hg] at hroom
    simp only [write, append, hg, cap]
    rw [if_pos (by omega)]
    simp only [List.length_append, List.length_take, List.length_drop]
    omega

example : cap (grow ⟨none, 0⟩ 100) = 100 ∧ cap (grow ⟨none, 0⟩ 3) = 64 ∧
    cap (write (fun _ _ => 7) (grow ⟨none, 0⟩ 3) [1#8, 2#8, 3#8]).2 = 64 := by decide +kernel

/-- C202: `GrowLen(n)` on a buffer that is not nil returns the old length, extends the length by `n`
and keeps the content.
Missing: nil buffers, and that the added bytes are zero when the capacity suffices (refuted:
`C202_grow_len_nil_violated`, `C202_grow_len_stale_violated`). -/
theorem C202_grow_len_partial (b : Flat) (hb : b.Wf) (s : Slice) (h : b.buf = some s) (n : Nat) :
    ∃ b', growLen b n = some (blen b, b') ∧ blen b' = blen b + n ∧ b'.Wf ∧
      (bytes b').take (blen b) = bytes b := by
  have hs := hb s h
  have hbl : blen b = s.len := by simp [blen, h]
  simp only [growLen, h, hbl]
  split
  · next hn =>
    rw [if_neg (by omega)]
    refine ⟨_, rfl, ?_, fun t e => ?_, ?_⟩
    · simp only [blen]; omega
    · cases e; simp only; omega
    · simp only [bytes, h, Slice.data, List.take_take]
      congr 1; omega
  · next hn =>
    have hd : s.data.length = s.len := by simp [Slice.data]; omega
    obtain ⟨h1, h2⟩ := take_goCopy_replicate s.data (2 * (s.arr.length : Int) + n).toNat
      (by omega)
    refine ⟨_, rfl, ?_, fun t e => ?_, ?_⟩
    · simp only [blen]; omega
    · cases e; simp only; rw [h2]; omega
    · simp only [bytes, h]
      rw [hd] at h1
      simp only [Slice.data, List.take_take] at h1 ⊢
      rw [Nat.min_eq_left (by omega)]
      exact h1

example := C202_grow_len_partial ⟨some ⟨[1#8, 2#8, 3#8, 9#8], 3⟩, 1⟩ (fun s h => by cases h; decide) _ rfl 5

/-- C202 is violated: on a nil buffer `GrowLen(n)` leaves the length zero. -/
theorem C202_grow_len_nil_violated (off : Nat) (n : Nat) :
    ∃ b', growLen ⟨none, off⟩ n = some (0, b') ∧ blen b' = 0 := by
  simp [growLen, blen]

/-- C202 is violated: `GrowLen` can expose bytes written before a `Reset`. -/
theorem C202_grow_len_stale_violated (s : Slice) (off : Nat) (h : s.len ≤ s.arr.length) :
    ∃ b', growLen (reset ⟨some s, off⟩) s.len = some (0, b') ∧ bytes b' = s.data := by
  refine ⟨⟨some ⟨s.arr, s.len⟩, 0⟩, ?_, rfl⟩
  simp only [growLen, reset, Option.map_some]
  rw [if_pos (by omega), if_neg (by omega)]
  simp

example : growLen (reset ⟨some ⟨[5#8, 6#8], 2⟩, 0⟩) 2
    = some (0, ⟨some ⟨[5#8, 6#8], 2⟩, 0⟩) := by decide +kernel

end Memar.Buffer
