import Verif.Metric.Lemmas

/-!
# C43, C80: counters, for all histories and interleavings
-/

namespace Memar.Metric
open Memar

/-! ## C43: the counters of connections -/

/-- How many events of a history satisfy `p`. -/
def num {ε} (p : ε → Bool) (h : List ε) : BitVec 64 := BitVec.ofNat 64 (h.countP p)

theorem num_cons {ε} (p : ε → Bool) (e : ε) (h : List ε) :
    num p (e :: h) = (if p e then 1 else 0) + num p h := by
  unfold num
  rw [List.countP_cons]
  split <;> simp [BitVec.ofNat_add, BitVec.add_comm]

/-- Specification: the value of each counter after the events `h`, in any order. -/
def expected (h : List CEvent) : CC → BitVec 64
  | .opened => num (fun e => e == .connOpened || e == .guestConnOpened) h
  | .guest => num (· == .guestConnOpened) h
  | .inUse => num (fun e => e == .connOpened || e == .guestConnOpened) h
      - num (fun e => e == .connIdled || e == .connWaited || e == .connClosed || e == .guestConnClosed
          || e == .lifetimeConnClosed) h
  | .idle => num (· == .connIdled) h - num (· == .idleConnClosed) h
  | .wait => num (· == .connWaited) h - num (· == .waitConnClosed) h
  | .closed => num (fun e => e == .connClosed || e == .guestConnClosed || e == .idleConnClosed
      || e == .waitConnClosed || e == .lifetimeConnClosed) h
  | .guestClosed => num (· == .guestConnClosed) h
  | .idleClosed => num (· == .idleConnClosed) h
  | .waitClosed => num (· == .waitConnClosed) h
  | .lifetimeClosed => num (· == .lifetimeConnClosed) h

theorem total_expected (h : List CEvent) (k : CC) : total k (h.flatMap CEvent.atoms) = expected h k := by
  induction h with
  | nil => cases k <;> simp [total, expected, num]
  | cons e h ih =>
    rw [List.flatMap_cons, total_append, ih]
    cases k <;> cases e <;>
      simp [expected, num_cons, CEvent.atoms, total, BitVec.sub_eq_add_neg, BitVec.neg_add] <;> grind

/-- C43: after every history each counter has the value its name says. -/
theorem C43_sequential (h : List CEvent) (k : CC) : runSeq CEvent.atoms h k = expected h k := by
  rw [runSeq_total, total_expected]

/-- C43: the same for any number of goroutines and every interleaving of their atomic additions, once
they are done: the totals depend neither on the schedule nor on who reported which event. -/
theorem C43_any_interleaving (threads : List (List CEvent)) (c : Config CC)
    (hc : Steps (start CEvent.atoms threads) c) (hd : c.Done) (k : CC) :
    c.counters k = expected threads.flatten k := by
  have := steps_total hc k
  rw [done_total hd k] at this
  simp only [start] at this
  have h0 : (0 : BitVec 64) = 0#64 := rfl
  rw [h0, BitVec.add_zero, BitVec.zero_add] at this
  rw [← this, total2_flatten, ← total_expected]
  congr 1
  simp [List.flatMap, List.map_flatten, List.flatten_flatten]
  rfl

/-- C43: every schedule can be completed. -/
theorem C43_completes (threads : List (List CEvent)) (c : Config CC)
    (_hc : Steps (start CEvent.atoms threads) c) : ∃ d, Steps c d ∧ d.Done := can_finish c

/-- C43: the conservation law: opened = in use + idle + waiting + closed. -/
theorem C43_conservation (h : List CEvent) :
    expected h .opened = expected h .inUse + expected h .idle + expected h .wait + expected h .closed := by
  induction h with
  | nil => simp [expected, num]
  | cons e h ih =>
    simp only [expected] at ih
    cases e <;> simp [expected, num_cons] <;> grind

/-- The deviation from the law. -/
def deviation (s : CC → BitVec 64) : BitVec 64 :=
  s .opened - (s .inUse + s .idle + s .wait + s .closed)

/-- C43: in every state of every schedule the deviation from the law is that of the additions still to
be done. -/
theorem C43_conservation_always (threads : List (List CEvent)) (c : Config CC)
    (hc : Steps (start CEvent.atoms threads) c) :
    deviation c.counters + deviation (fun k => total k c.todo.flatten) = 0 := by
  have h := fun k => steps_total hc k
  have h0 : ∀ k, (start CEvent.atoms threads).counters k + total2 k (start CEvent.atoms threads).todo
      = expected threads.flatten k := by
    intro k
    rw [total2_flatten, ← total_expected]
    simp only [start]
    have h0 : (0 : BitVec 64) = 0#64 := rfl
    rw [h0, BitVec.zero_add]
    congr 1
    simp [List.flatMap, List.map_flatten, List.flatten_flatten]
    rfl
  have hcons := C43_conservation threads.flatten
  simp only [h0] at h
  simp only [total2_flatten] at h
  rw [h .opened, h .inUse, h .idle, h .wait, h .closed] at hcons
  unfold deviation
  grind

/-- C43: the law holds in every state of every schedule in which no call is under way, whatever calls
are still to come. -/
theorem C43_conservation_quiescent (threads rest : List (List CEvent)) (c : Config CC)
    (hc : Steps (start CEvent.atoms threads) c) (hq : c.todo = (start CEvent.atoms rest).todo) :
    c.counters .opened
      = c.counters .inUse + c.counters .idle + c.counters .wait + c.counters .closed := by
  have h := C43_conservation_always threads c hc
  have h0 : ∀ k, total k c.todo.flatten = expected rest.flatten k := by
    intro k
    rw [hq, ← total_expected]
    congr 1
    simp [start, List.flatMap, List.map_flatten, List.flatten_flatten]
    rfl
  have hcons := C43_conservation rest.flatten
  unfold deviation at h
  simp only [h0] at h
  grind

/-! ### The counters are a census of the connections -/

/-- Specification: what happened to a connection last. -/
inductive Life where | inUse | idle | wait | closed
deriving DecidableEq, Repr

/-- Specification: events of numbered connections, the next number when opened.  `none` if the event is
not one of a connection in that state. -/
def life : List Life → CEvent × Nat → Option (List Life)
  | cs, (.connOpened, _) => some (cs ++ [.inUse])
  | cs, (.guestConnOpened, _) => some (cs ++ [.inUse])
  | cs, (.connIdled, i) => if cs[i]? = some .inUse then some (cs.set i .idle) else none
  | cs, (.connWaited, i) => if cs[i]? = some .inUse then some (cs.set i .wait) else none
  | cs, (.connClosed, i) => if cs[i]? = some .inUse then some (cs.set i .closed) else none
  | cs, (.guestConnClosed, i) => if cs[i]? = some .inUse then some (cs.set i .closed) else none
  | cs, (.lifetimeConnClosed, i) => if cs[i]? = some .inUse then some (cs.set i .closed) else none
  | cs, (.idleConnClosed, i) => if cs[i]? = some .idle then some (cs.set i .closed) else none
  | cs, (.waitConnClosed, i) => if cs[i]? = some .wait then some (cs.set i .closed) else none

/-- Specification: the connections after a history. -/
def census (h : List (CEvent × Nat)) : Option (List Life) :=
  h.foldl (fun s e => s.bind fun cs => life cs e) (some [])

theorem set_count (cs : List Life) (i : Nat) (a b x : Life) (h : cs[i]? = some a) (hab : a ≠ b) :
    (cs.set i b).count x + (if a = x then 1 else 0) = cs.count x + if b = x then 1 else 0 := by
  obtain ⟨hi, he⟩ := List.getElem?_eq_some_iff.1 h
  rw [List.count_set hi, he]
  have hpos : a = x → 0 < cs.count x := by
    intro e; subst e; exact List.count_pos_iff.2 (he ▸ List.getElem_mem hi)
  by_cases h1 : a = x
  · have := hpos h1
    by_cases h2 : b = x
    · exact absurd (h1.trans h2.symm) hab
    · simp [h1, h2]; omega
  · by_cases h2 : b = x <;> simp [h1, h2]

theorem runSeq_concat (h : List CEvent) (e : CEvent) (k : CC) :
    runSeq CEvent.atoms (h ++ [e]) k = runSeq CEvent.atoms h k + total k e.atoms := by
  simp [runSeq_total, total_append]

theorem move (cs : List Life) (i : Nat) (a b : Life) (h : cs[i]? = some a) (hab : a ≠ b) (x : Life) :
    BitVec.ofNat 64 ((cs.set i b).count x)
      = BitVec.ofNat 64 (cs.count x) + (if b = x then 1 else 0) + (if a = x then -1 else 0) := by
  have h1 := set_count cs i a b x h hab
  have h2 := congrArg (BitVec.ofNat 64) h1
  rw [BitVec.ofNat_add, BitVec.ofNat_add] at h2
  by_cases ha : a = x
  · by_cases hb : b = x
    · exact absurd (ha.trans hb.symm) hab
    · simp only [ha, hb, if_true, if_false] at h2 ⊢; grind
  · by_cases hb : b = x
    · simp only [ha, hb, if_true, if_false] at h2 ⊢; grind
    · simp only [ha, hb, if_false] at h2 ⊢; grind

/-- C43: if every event is reported for a connection in the state it is about, the counters are the
numbers of connections in each state. -/
theorem C43_census (h : List (CEvent × Nat)) (cs : List Life) (hc : census h = some cs) :
    runSeq CEvent.atoms (h.map (·.1)) .opened = BitVec.ofNat 64 cs.length ∧
    runSeq CEvent.atoms (h.map (·.1)) .inUse = BitVec.ofNat 64 (cs.count .inUse) ∧
    runSeq CEvent.atoms (h.map (·.1)) .idle = BitVec.ofNat 64 (cs.count .idle) ∧
    runSeq CEvent.atoms (h.map (·.1)) .wait = BitVec.ofNat 64 (cs.count .wait) ∧
    runSeq CEvent.atoms (h.map (·.1)) .closed = BitVec.ofNat 64 (cs.count .closed) := by
  suffices hs : ∀ r : List (CEvent × Nat), ∀ cs, census r.reverse = some cs →
      runSeq CEvent.atoms (r.reverse.map (·.1)) .opened = BitVec.ofNat 64 cs.length ∧
      runSeq CEvent.atoms (r.reverse.map (·.1)) .inUse = BitVec.ofNat 64 (cs.count .inUse) ∧
      runSeq CEvent.atoms (r.reverse.map (·.1)) .idle = BitVec.ofNat 64 (cs.count .idle) ∧
      runSeq CEvent.atoms (r.reverse.map (·.1)) .wait = BitVec.ofNat 64 (cs.count .wait) ∧
      runSeq CEvent.atoms (r.reverse.map (·.1)) .closed = BitVec.ofNat 64 (cs.count .closed) by
    have := hs h.reverse cs (by rw [List.reverse_reverse]; exact hc)
    rwa [List.reverse_reverse] at this
  intro r
  induction r with
  | nil =>
    intro cs hc
    injection hc with hc
    subst hc
    decide
  | cons e r ih =>
    intro cs hc
    rw [List.reverse_cons, census, List.foldl_append] at hc
    obtain ⟨cs0, h0, hc⟩ := Option.bind_eq_some_iff.1 hc
    obtain ⟨i1, i2, i3, i4, i5⟩ := ih cs0 h0
    rw [List.reverse_cons, List.map_append, List.map_cons, List.map_nil]
    simp only [runSeq_concat, i1, i2, i3, i4, i5]
    obtain ⟨e, i⟩ := e
    cases e <;> simp only [life] at hc <;>
      first
      | (injection hc with hc; subst hc
         simp [CEvent.atoms, total, List.count_append, BitVec.ofNat_add])
      | (split at hc
         · next hg =>
           injection hc with hc; subst hc
           first
           | (simp only [List.length_set, move cs0 i _ .closed hg (by decide)]
              simp [CEvent.atoms, total]; done)
           | (simp only [List.length_set, move cs0 i _ .idle hg (by decide)]
              simp [CEvent.atoms, total]; done)
           | (simp only [List.length_set, move cs0 i _ .wait hg (by decide)]
              simp [CEvent.atoms, total]; done)
         · simp at hc)

example : census [(.connOpened, 0), (.guestConnOpened, 0), (.connIdled, 0), (.idleConnClosed, 0),
    (.guestConnClosed, 1), (.connOpened, 0)] = some [.closed, .closed, .inUse] := rfl

/-- Two goroutines report an opening and a closing; the second overtakes the first. -/
example : Steps (start CEvent.atoms [[.connOpened], [.connIdled]])
    ⟨add (add (fun _ => 0) (CC.inUse, -1)) (CC.opened, 1), [[(CC.inUse, 1)], [(CC.idle, 1)]]⟩ :=
  .tail (.tail (.refl _) (.go _ [[(CC.opened, 1), (CC.inUse, 1)]] [] (CC.inUse, -1) [(CC.idle, 1)]))
    (.go _ [] [[(CC.idle, 1)]] (CC.opened, 1) [(CC.inUse, 1)])

/-! ## C80: the traffic counters of a connection -/

/-- The sum of the packet lengths of the events `f` selects. -/
def sumLen (f : MEvent → Option (BitVec 64)) : List MEvent → BitVec 64
  | [] => 0
  | e :: h => (f e).getD 0 + sumLen f h

/-- Specification: the value of each counter after the events `h`. -/
def expectedM (h : List MEvent) : MC → BitVec 64
  | .packetsSent => num (fun | .packetSent _ => true | .packetResend _ => true | _ => false) h
  | .bytesSent => sumLen (fun | .packetSent n => some n | .packetResend n => some n | _ => none) h
  | .packetsReceived => num (fun | .packetReceived _ => true | _ => false) h
  | .bytesReceived => sumLen (fun | .packetReceived n => some n | _ => none) h
  | .lostPackets => num (fun | .packetResend _ => true | _ => false) h
  | .lostBytes => sumLen (fun | .packetResend n => some n | _ => none) h
  | .resendPackets => num (fun | .duplicatePacketReceived _ => true | _ => false) h
  | .resendBytes => sumLen (fun | .duplicatePacketReceived n => some n | _ => none) h
  | .succeed => num (· == .streamSucceed) h
  | .failed => num (· == .streamFailed) h

theorem total_expectedM (h : List MEvent) (k : MC) : total k (h.flatMap MEvent.atoms) = expectedM h k := by
  induction h with
  | nil => cases k <;> simp [total, expectedM, num, sumLen]
  | cons e h ih =>
    rw [List.flatMap_cons, total_append, ih]
    cases k <;> cases e <;> simp [expectedM, num_cons, sumLen, MEvent.atoms, total]

/-- C80: for any number of goroutines and every interleaving of their atomic additions, once they are
done each counter is the number of the events it counts, or the sum of their packet lengths (as 64-bit
words); resent packets count as sent and as lost. -/
theorem C80_traffic (threads : List (List MEvent)) (c : Config MC)
    (hc : Steps (start MEvent.atoms threads) c) (hd : c.Done) (k : MC) :
    c.counters k = expectedM threads.flatten k := by
  have := steps_total hc k
  rw [done_total hd k] at this
  simp only [start] at this
  have h0 : (0 : BitVec 64) = 0#64 := rfl
  rw [h0, BitVec.add_zero, BitVec.zero_add] at this
  rw [← this, total2_flatten, ← total_expectedM]
  congr 1
  simp [List.flatMap, List.map_flatten, List.flatten_flatten]
  rfl

/-- C80: one goroutine. -/
theorem C80_sequential (h : List MEvent) (k : MC) : runSeq MEvent.atoms h k = expectedM h k := by
  rw [runSeq_total, total_expectedM]

/-- C80: reports in another order give the same counters. -/
theorem C80_order (h h' : List MEvent) (hp : h.Perm h') (k : MC) :
    runSeq MEvent.atoms h k = runSeq MEvent.atoms h' k := by
  rw [runSeq_total, runSeq_total]
  exact total_perm k (hp.flatMap_right _)

example : runSeq MEvent.atoms [.packetSent 100, .packetResend 40, .packetReceived 7] .bytesSent = 140 := by
  decide

/-- One goroutine reports an opening, another has nothing to report. -/
theorem exRun : Steps (start CEvent.atoms [[.connOpened], []])
    ⟨add (add (fun _ => 0) (CC.opened, 1)) (CC.inUse, 1), [[], []]⟩ :=
  .tail (.tail (.refl _) (.go _ [] [[]] (CC.opened, 1) [(CC.inUse, 1)])) (.go _ [] [[]] (CC.inUse, 1) [])

example := C43_any_interleaving [[.connOpened], []] _ exRun (by intro t ht; simpa using ht) .inUse
example := C43_completes _ _ exRun
example := C43_conservation_always _ _ exRun
example := C43_conservation_quiescent _ [[], []] _ exRun rfl
example := C80_traffic [[.streamSucceed], []] ⟨add (fun _ => 0) (MC.succeed, 1), [[], []]⟩
  (.tail (.refl _) (.go _ [] [[]] (MC.succeed, 1) [])) (by intro t ht; simpa using ht) .succeed

end Memar.Metric
