import Verif.Base

/-!
# Model of adt/queue (queue.go, queue-codec.go) and its properties (C119)

Pointers: `head` and `tail` are `none` for nil, otherwise the node they point to; the two are only ever set to nodes made
by `Write`. A nil dereference is `none` in the result.
-/

namespace Memar.Queue

/-- `ringBuf` (adt/queue/queue.go:61-66) without its link. -/
structure Node where
  data : Bytes
  offset : Nat
  ln : Nat
  deriving DecidableEq, Repr

/-- `Queue` (adt/queue/queue.go:11-17): the node at the head and what follows it (`next`), the tail, the total length and the
total capacity. -/
structure Queue where
  head : Option (Node × Option Node)
  tail : Option Node
  totalLen : Nat
  totalCap : Nat
  deriving DecidableEq, Repr

/-- The zero queue. -/
def zero : Queue := ⟨none, none, 0, 0⟩

/-- adt/queue/queue.go:20-24: `Init`. -/
def Queue.init (q : Queue) (initCap : Nat) : Queue := { q with totalCap := initCap }

/-- adt/queue/queue.go:25-32: `Reinit` and `Deinit` change nothing. -/
def Queue.reinit (q : Queue) : Queue := q

/-- adt/queue/queue.go:34: `Full`. -/
def Queue.full (_q : Queue) : Bool := false

/-- adt/queue/queue.go:36-38: `Read` into a slice of length `room`: the bytes delivered. -/
def Queue.read (_q : Queue) (_room : Nat) : Bytes := []

/-- adt/queue/queue.go:39-54: `Write`: the queue and the count it returns; `none` is a panic. -/
def Queue.write (q : Queue) (b : Bytes) : Option (Queue × Nat) :=
  match q.head with
  | none => none
  | some (h, nxt) =>
    if h.ln = 0 then some ({ q with head := some ({ h with data := b }, nxt) }, 0)
    else
      let rb : Node := ⟨b, 0, b.length⟩
      some ({ q with head := some (h, some rb), tail := some rb }, 0)

/-- adt/queue/queue.go:55-58: `WriteIn` changes nothing. -/
def Queue.writeIn (q : Queue) (_b : Bytes) (_at : Nat) : Queue × Nat := (q, 0)

/-- adt/queue/queue-codec.go:12-14: `Decode` and `Encode` do nothing; 15-17: `Marshal` gives no bytes. -/
def Queue.marshal (_q : Queue) : Bytes := []

/-- adt/queue/queue-codec.go:19-21: `Unmarshal` takes nothing. -/
def Queue.unmarshal (q : Queue) (_source : Bytes) : Queue × Nat := (q, 0)

/-- adt/queue/queue-codec.go:22: `SerializationLength`. -/
def Queue.serializationLength (q : Queue) : Nat := q.totalLen

/-- The calls a user of a queue can make. -/
inductive Op where
  | init (cap : Nat)
  | reinit
  | write (b : Bytes)
  | writeIn (b : Bytes) (pos : Nat)
  | unmarshal (b : Bytes)
  deriving DecidableEq, Repr

/-- One call: `none` is a panic. -/
def Queue.op (q : Queue) : Op → Option Queue
  | .init c => some (q.init c)
  | .reinit => some q.reinit
  | .write b => (q.write b).map (·.1)
  | .writeIn b i => some (q.writeIn b i).1
  | .unmarshal b => some (q.unmarshal b).1

/-- A history of calls. -/
def run (q : Queue) : List Op → Option Queue
  | [] => some q
  | o :: os => (q.op o).bind fun (q : Queue) => run q os

/-! ## C119 -/

theorem run_head (os : List Op) (q q' : Queue) (hq : q.head = none) (h : run q os = some q') :
    q'.head = none ∧ q'.totalLen = q.totalLen := by
  induction os generalizing q with
  | nil => simp only [run, Option.some.injEq] at h; exact h ▸ ⟨hq, rfl⟩
  | cons o os ih =>
    simp only [run, Option.bind_eq_some_iff] at h
    obtain ⟨q1, h1, h2⟩ := h
    have : q1.head = none ∧ q1.totalLen = q.totalLen := by
      cases o with
      | write b => simp [Queue.op, Queue.write, hq] at h1
      | _ => simp only [Queue.op, Option.some.injEq] at h1; exact h1 ▸ ⟨hq, rfl⟩
    obtain ⟨e1, e2⟩ := ih q1 this.1 h2
    exact ⟨e1, by rw [e2, this.2]⟩

/-- C119 violated: bytes written to a queue can be written, and read back in order. Here no queue a user can make takes any
write: whatever calls came before, `Write` panics, for every slice, and `Read` delivers nothing. -/
theorem C119_write_panics_violated (os : List Op) (q : Queue) (h : run zero os = some q) (b : Bytes) (room : Nat) :
    q.write b = none ∧ q.read room = [] ∧ q.serializationLength = 0 := by
  obtain ⟨h1, h2⟩ := run_head os zero q rfl h
  refine ⟨by simp [Queue.write, h1], rfl, h2⟩

example := C119_write_panics_violated [.init 8, .reinit] _ rfl [1#8, 2#8] 4

/-- C119 violated: a queue takes no more than its capacity and says when it is full. Here it never says so, whatever its capacity
and contents. -/
theorem C119_never_full_violated (q : Queue) (cap : Nat) : (q.init cap).full = false ∧ (q.init 0).full = false := ⟨rfl, rfl⟩

/-- C119 violated: even with a head in place, a second write keeps the first one and the lengths count the bytes. Here the first
write leaves the length of the head zero, so the second one replaces it; both report zero bytes written. -/
theorem C119_overwritten_violated (q : Queue) (h : Node) (nxt : Option Node) (hh : q.head = some (h, nxt)) (hl : h.ln = 0)
    (a b : Bytes) :
    ∃ q1 q2, q.write a = some (q1, 0) ∧ q1.write b = some (q2, 0) ∧ q2.head = some ({ h with data := b }, nxt) ∧
      q2.totalLen = q.totalLen := by
  refine ⟨{ q with head := some ({ h with data := a }, nxt) }, { q with head := some ({ h with data := b }, nxt) }, ?_, ?_, rfl, rfl⟩
  · simp [Queue.write, hh, hl]
  · simp [Queue.write, hl]

example := C119_overwritten_violated ⟨some (⟨[], 0, 0⟩, none), none, 0, 8⟩ _ _ rfl rfl [1#8] [2#8, 3#8]

/-- C119 violated: with a filled head, every write is kept. Here each write is put directly behind the head, so only the last one
stays. -/
theorem C119_middle_lost_violated (q : Queue) (h : Node) (nxt : Option Node) (hh : q.head = some (h, nxt)) (hl : h.ln ≠ 0)
    (a b : Bytes) :
    ∃ q1 q2, q.write a = some (q1, 0) ∧ q1.write b = some (q2, 0) ∧ q2.head = some (h, some ⟨b, 0, b.length⟩) ∧
      q2.tail = some ⟨b, 0, b.length⟩ := by
  refine ⟨{ q with head := some (h, some ⟨a, 0, a.length⟩), tail := some ⟨a, 0, a.length⟩ },
    { q with head := some (h, some ⟨b, 0, b.length⟩), tail := some ⟨b, 0, b.length⟩ }, ?_, ?_, rfl, rfl⟩
  · simp [Queue.write, hh, hl]
  · simp [Queue.write, hl]

example := C119_middle_lost_violated ⟨some (⟨[7#8], 0, 1⟩, none), none, 1, 8⟩ _ _ rfl (by decide) [1#8] [2#8, 3#8]

/-- **C119** (partial: nothing is ever in the queue): the calls that do nothing leave the queue as it was and report no bytes;
the codec's length is the length of its bytes for every queue a user can make.
Missing: writing and reading back (refuted: `C119_write_panics_violated`). -/
theorem C119_codec_partial (os : List Op) (q : Queue) (h : run zero os = some q) (b : Bytes) (i : Nat) :
    q.writeIn b i = (q, 0) ∧ q.unmarshal b = (q, 0) ∧ q.serializationLength = q.marshal.length := by
  refine ⟨rfl, rfl, (run_head os zero q rfl h).2⟩

example : run zero [.init 16, .writeIn [1#8] 0, .reinit] = some ⟨none, none, 0, 16⟩ := by decide
example : run zero [.init 16, .write [1#8]] = none := by decide
example : (⟨some (⟨[], 0, 0⟩, none), none, 0, 16⟩ : Queue).write [7#8] =
    some (⟨some (⟨[7#8], 0, 0⟩, none), none, 0, 16⟩, 0) := by decide

end Memar.Queue
