import Verif.Tcp.Model
import Verif.Net.TcpProps

/-!
# C48, C90, C91: the TCP stream
-/

namespace Memar.Tcp
open Memar Net Net.Tcp

/-! ## Specification -/

/-- The segment passes the check and carries these bytes at this sequence number. -/
def Carries (seg : Bytes) (sn : U32) (p : Bytes) : Prop :=
  checkSegment seg = some .ok ∧ sequenceNumber seg = some sn ∧ payload seg = some p

/-- RFC 793: the segments, with their payloads, follow one another in the peer's byte stream, the
first byte having the given sequence number. -/
def InSequence : U32 → List (Bytes × Bytes) → Prop
  | _, [] => True
  | sn, (seg, p) :: rest => Carries seg sn p ∧ InSequence (sn + BitVec.ofNat 32 p.length) rest

/-- What the interface says `Insert` does: the elements go in at the offset, what was there moves
behind them.  Nothing is said about an offset beyond the end. -/
def InsertSpec (ins : InsertFn) : Prop :=
  ∀ (b : Bytes) (o : Nat) (p : Bytes), o ≤ b.length → ins b o p = some (b.take o ++ p ++ b.drop o)

/-- An `Insert` that meets the description and refuses offsets beyond the end. -/
def refusing : InsertFn := fun b o p =>
  if o ≤ b.length then some (b.take o ++ p ++ b.drop o) else none

theorem refusing_spec : InsertSpec refusing := fun _ _ _ h => if_pos h

/-- A segment with a twenty byte header: sequence number and flags as given. -/
def segment (a b c d fl : Byte) (p : Bytes) : Bytes :=
  [0, 0, 0, 0, a, b, c, d, 0, 0, 0, 0, 0x50#8, fl, 0, 0, 0, 0, 0, 0] ++ p

theorem carries_segment (a b c d fl : Byte) (p : Bytes) :
    ∃ sn, Carries (segment a b c d fl p) sn p ∧ flag .psh (segment a b c d fl p) =
      some (fl &&& 8#8 != 0#8) := by
  have hd : dataOffset (segment a b c d fl p) = some 20#8 := by
    simp [segment, dataOffset]
  have hc : checkSegment (segment a b c d fl p) = some .ok := by
    rw [checkSegment, if_neg (by simp [segment, minSize]), hd]
    simp [segment]
  have hl : 20 ≤ (segment a b c d fl p).length := by simp [segment]
  have hsn := C32_layout .sequenceNumber _ hl
  refine ⟨_, ⟨hc, hsn, ?_⟩, by simp [segment, flag, Flag.index, Flag.mask]⟩
  rw [payload, hd]
  simp [segment, sliceFrom]

/-! ## `Receive` in each state -/

theorem flag_isSome (s : Bytes) (h : checkSegment s = some .ok) (f : Flag) :
    ∃ b, flag f s = some b := by
  have := (C33_checked_reads s h).2.1 f
  cases hf : flag f s with
  | none => exact absurd hf this
  | some b => exact ⟨b, rfl⟩

theorem receive_ok (ins : InsertFn) (s : Stream) (seg : Bytes) (h : checkSegment seg = some .ok) :
    receive ins s seg = (match s.status with
      | .listen => onListen s seg
      | .synSent => onSynSent s seg
      | .established => onEstablished ins s seg
      | _ => some (s, .ok)) := by
  simp only [receive, h, Option.bind_some]
  cases s.status <;> rfl

theorem receive_established (ins : InsertFn) (s : Stream) (seg : Bytes) (sn : U32) (p : Bytes)
    (hs : s.status = .established) (h : Carries seg sn p) :
    receive ins s seg = onEstablished ins s seg ∧
    (sn = s.next → ∃ n, receive ins s seg =
      some ({ s with next := s.next + 1#32, buf := s.buf ++ p, scheduled := n }, .ok)) ∧
    (sn ≠ s.next → receive ins s seg = some (validateSequence ins s sn p)) := by
  obtain ⟨h1, h2, h3⟩ := h
  have h0 : receive ins s seg = onEstablished ins s seg := by
    rw [receive_ok ins s seg h1, hs]
  refine ⟨h0, ?_, ?_⟩
  · intro hsn
    obtain ⟨b, hb⟩ := flag_isSome seg h1 .psh
    rw [h0, onEstablished, h3, Option.bind_some, h2, Option.bind_some, if_pos hsn, hb]
    cases b
    · exact ⟨s.scheduled, rfl⟩
    · exact ⟨s.scheduled + 1, rfl⟩
  · intro hsn
    rw [h0, onEstablished, h3, Option.bind_some, h2, Option.bind_some, if_neg hsn]

/-- C48: whatever arrives, in whatever state the stream is, handling it does not panic; a segment
that fails the check is refused and changes nothing. -/
theorem C48_total (ins : InsertFn) (s : Stream) (seg : Bytes) :
    receive ins s seg ≠ none ∧
    (checkSegment seg ≠ some .ok → ∃ e, e ≠ Err.ok ∧ receive ins s seg = some (s, e)) := by
  have hne := (C33_check seg).2
  cases hc : checkSegment seg with
  | none => exact absurd hc hne
  | some c =>
    cases c with
    | tooShort => simp [receive, hc]
    | wrongLength => simp [receive, hc]
    | ok =>
      refine ⟨?_, fun h => absurd rfl h⟩
      rw [receive_ok ins s seg hc]
      obtain ⟨b1, h1⟩ := flag_isSome seg hc .syn
      obtain ⟨b2, h2⟩ := flag_isSome seg hc .ack
      split
      · simp [onListen, h1]
      · simp [onSynSent, h1, h2]
      · rename_i hs
        obtain ⟨_, _, _, d, _, hp⟩ := C33_checked_reads seg hc
        have hl := ((C33_check seg).1.1 hc).1
        obtain ⟨sn, hsn0⟩ : ∃ sn, sequenceNumber seg = some sn :=
          ⟨_, C32_layout .sequenceNumber seg hl⟩
        obtain ⟨h0, ha, hb⟩ := receive_established ins s seg _ _ hs ⟨hc, hsn0, hp⟩
        rw [← h0]
        by_cases hsn : sn = s.next
        · obtain ⟨n, hn⟩ := ha hsn
          rw [hn]; simp
        · rw [hb hsn]; simp
      · simp

example : receive refusing ⟨536, .established, 1#32, [], 0⟩ [1, 2, 3] =
    some (⟨536, .established, 1#32, [], 0⟩, .tooShort) := by decide

/-- C48: a pushed segment, and only a pushed one, asks the application layer to process the
socket, when it is the expected one. -/
theorem C48_push (ins : InsertFn) (s : Stream) (seg p : Bytes) (b : Bool)
    (hs : s.status = .established) (h : Carries seg s.next p) (hb : flag .psh seg = some b) :
    ∃ s', receive ins s seg = some (s', .ok) ∧
      s'.scheduled = s.scheduled + (if b then 1 else 0) := by
  obtain ⟨h1, h2, h3⟩ := h
  rw [receive_ok ins s seg h1, hs]
  simp only [onEstablished, h3, Option.bind_some, h2, if_pos trivial, hb]
  cases b
  · exact ⟨_, rfl, rfl⟩
  · exact ⟨_, rfl, rfl⟩

example : ∃ sn, Carries (segment 0 0 0 7 8 [1, 2]) sn [1, 2] ∧
    flag .psh (segment 0 0 0 7 8 [1, 2]) = some true := carries_segment 0 0 0 7 8 [1, 2]

/-! ## In-order delivery -/

/-- C272, for segments of one byte: segments that follow one another in the peer's stream, starting
at the expected sequence number, are delivered in order, and the next byte of the stream is then
the expected one.  Missing: longer segments (see the violations below). -/
theorem C272_in_order_partial (ins : InsertFn) (segs : List (Bytes × Bytes)) (s : Stream)
    (hs : s.status = .established) (hseq : InSequence s.next segs)
    (h1 : ∀ x ∈ segs, x.2.length = 1) :
    ∃ s', receiveAll ins s (segs.map (·.1)) = some s' ∧ s'.status = .established ∧
      s'.buf = s.buf ++ (segs.map (·.2)).flatten ∧
      s'.next = s.next + BitVec.ofNat 32 (segs.map (·.2)).flatten.length := by
  induction segs generalizing s with
  | nil => exact ⟨s, rfl, hs, by simp, by simp⟩
  | cons x rest ih =>
    obtain ⟨seg, p⟩ := x
    obtain ⟨hc, hrest⟩ := hseq
    obtain ⟨n, hn⟩ := (receive_established ins s seg _ p hs hc).2.1 rfl
    have hp : p.length = 1 := h1 (seg, p) (by simp)
    rw [hp] at hrest
    obtain ⟨s', h2, h3, h4, h5⟩ := ih { s with next := s.next + 1#32, buf := s.buf ++ p, scheduled := n }
      hs hrest (fun x hx => h1 x (by simp [hx]))
    refine ⟨s', ?_, h3, ?_, ?_⟩
    · simp only [List.map_cons, receiveAll, hn, Option.bind_some]; exact h2
    · simp only [List.map_cons, List.flatten_cons]; rw [h4]; simp
    · simp only [List.map_cons, List.flatten_cons, List.length_append, hp]; rw [h5]
      simp [BitVec.ofNat_add, BitVec.add_assoc]

example : InSequence 7#32 [(segment 0 0 0 7 0 [1], [1]), (segment 0 0 0 8 0 [2], [2])] := by
  refine ⟨⟨rfl, rfl, rfl⟩, ⟨rfl, rfl, rfl⟩, trivial⟩

/-- What the code delivers in order: segments whose sequence numbers grow by one per segment,
whatever their payloads.
Missing: segments numbered by their bytes, the initial number, and passive opening (refuted:
`C272_following_segment_violated`, `C272_empty_segment_violated`, `C272_passive_open_violated`
and others). -/
theorem C272_counted_per_segment_partial (ins : InsertFn) (segs : List (Bytes × Bytes)) (s : Stream)
    (hs : s.status = .established)
    (hseq : ∀ i seg p, segs[i]? = some (seg, p) → Carries seg (s.next + BitVec.ofNat 32 i) p) :
    ∃ s', receiveAll ins s (segs.map (·.1)) = some s' ∧ s'.status = .established ∧
      s'.buf = s.buf ++ (segs.map (·.2)).flatten ∧
      s'.next = s.next + BitVec.ofNat 32 segs.length := by
  induction segs generalizing s with
  | nil => exact ⟨s, rfl, hs, by simp, by simp⟩
  | cons x rest ih =>
    obtain ⟨seg, p⟩ := x
    have hc := hseq 0 seg p rfl
    rw [show s.next + BitVec.ofNat 32 0 = s.next by simp] at hc
    obtain ⟨n, hn⟩ := (receive_established ins s seg _ p hs hc).2.1 rfl
    obtain ⟨s', h2, h3, h4, h5⟩ := ih { s with next := s.next + 1#32, buf := s.buf ++ p, scheduled := n }
      hs (fun i seg' p' h => by
        have := hseq (i + 1) seg' p' (by simpa using h)
        rw [BitVec.ofNat_add, BitVec.add_comm (BitVec.ofNat 32 i), ← BitVec.add_assoc] at this
        exact this)
    refine ⟨s', ?_, h3, ?_, ?_⟩
    · simp only [List.map_cons, receiveAll, hn, Option.bind_some]; exact h2
    · simp only [List.map_cons, List.flatten_cons]; rw [h4]; simp
    · rw [h5]; simp only [List.length_cons, BitVec.ofNat_add]
      rw [BitVec.add_comm (BitVec.ofNat 32 rest.length), ← BitVec.add_assoc]

example : receiveAll refusing ⟨536, .established, 7#32, [], 0⟩
    [segment 0 0 0 7 0 [1, 2, 3], segment 0 0 0 8 0 [4, 5]] =
    some ⟨536, .established, 9#32, [1, 2, 3, 4, 5], 0⟩ := by decide

/-- C272 is violated: after a segment of two or more bytes, the segment that follows it in the peer's
stream is put in front of the first one's last byte.  The stream is taken with an empty receive
buffer. -/
theorem C272_following_segment_violated (ins : InsertFn) (hins : InsertSpec ins) (s : Stream)
    (hs : s.status = .established) (hb : s.buf = []) (seg1 seg2 p q : Bytes) (x : Byte)
    (hp : p ≠ []) (hlen : p.length < 2 ^ 32 - 1)
    (hseq : InSequence s.next [(seg1, p ++ [x]), (seg2, q)]) :
    ∃ s', receiveAll ins s [seg1, seg2] = some s' ∧ s'.buf = p ++ q ++ [x] := by
  obtain ⟨hc1, hc2, _⟩ := hseq
  obtain ⟨n, hn⟩ := (receive_established ins s seg1 _ _ hs hc1).2.1 rfl
  have hpos : 0 < p.length := List.length_pos_iff.mpr hp
  have hsub : s.next + BitVec.ofNat 32 (p ++ [x]).length - (s.next + 1#32)
      = BitVec.ofNat 32 p.length := by
    rw [List.length_append, BitVec.ofNat_add]
    simp only [List.length_singleton]
    grind
  have hne : s.next + BitVec.ofNat 32 (p ++ [x]).length ≠ s.next + 1#32 := by
    intro he
    rw [he, BitVec.sub_self] at hsub
    have := congrArg BitVec.toNat hsub
    simp at this
    omega
  have h2 := (receive_established ins { s with next := s.next + 1#32, buf := s.buf ++ (p ++ [x]), scheduled := n }
    seg2 _ q hs hc2).2.2 hne
  simp only [validateSequence, hsub] at h2
  have hm : (BitVec.ofNat 32 p.length).toNat = p.length := by
    rw [BitVec.toNat_ofNat, Nat.mod_eq_of_lt (by omega)]
  rw [hm, hins _ _ _ (by simp [hb])] at h2
  refine ⟨⟨s.mss, s.status, s.next + 1#32, p ++ q ++ [x], n⟩, ?_, rfl⟩
  rw [receiveAll, hn, Option.bind_some, receiveAll, h2]
  simp [receiveAll, hb]

example : receiveAll refusing ⟨536, .established, 7#32, [], 0⟩
    [segment 0 0 0 7 0 [1, 2, 3], segment 0 0 0 10 0 [4, 5]] =
    some ⟨536, .established, 8#32, [1, 2, 4, 5, 3], 0⟩ := by decide

/-- C272 is violated: a segment without data moves the expected sequence number, so that the byte
the peer sends next, with the number the segment without data had, is not appended: it is inserted
at offset 4294967295. -/
theorem C272_empty_segment_violated (ins : InsertFn) (s : Stream) (hs : s.status = .established)
    (seg1 seg2 q : Bytes) (hseq : InSequence s.next [(seg1, []), (seg2, q)]) :
    ∃ s1, receive ins s seg1 = some (s1, .ok) ∧ s1.buf = s.buf ∧ s1.next = s.next + 1#32 ∧
      receive ins s1 seg2 = some (match ins s.buf (2 ^ 32 - 1) q with
        | some b => ({ s1 with buf := b }, .ok)
        | none => (s1, .buffer)) := by
  obtain ⟨hc1, hc2, _⟩ := hseq
  obtain ⟨n, hn⟩ := (receive_established ins s seg1 _ _ hs hc1).2.1 rfl
  refine ⟨_, hn, by simp, rfl, ?_⟩
  have hz : s.next + BitVec.ofNat 32 ([] : Bytes).length = s.next := by simp
  rw [hz] at hc2
  have hsub : s.next - (s.next + 1#32) = 4294967295#32 := by grind
  have hne : s.next ≠ s.next + 1#32 := by
    intro he
    rw [← he, BitVec.sub_self] at hsub
    exact absurd hsub (by decide)
  have h2 := (receive_established ins { s with next := s.next + 1#32, buf := s.buf ++ [], scheduled := n }
    seg2 _ q hs hc2).2.2 hne
  rw [h2]
  simp only [validateSequence, hsub, List.append_nil]
  rfl

example : (receive refusing ⟨536, .established, 7#32, [1], 0⟩ (segment 0 0 0 7 0 [])).bind
    (fun r => receive refusing r.1 (segment 0 0 0 7 0 [9])) =
    some (⟨536, .established, 8#32, [1], 0⟩, .buffer) := by decide

/-! ## Opening and closing -/

/-- C272 is violated: a stream opened by the peer is never established and never delivers anything,
whatever segments arrive; it leaves the listening state exactly when a segment with the SYN flag
arrives. -/
theorem C272_passive_open_violated (ins : InsertFn) (s0 : Stream) (segs : List Bytes) :
    ∃ s, receiveAll ins (init s0) segs = some s ∧ s.buf = s0.buf ∧ s.scheduled = s0.scheduled ∧
      (s.status = .synReceived ↔
        ∃ seg ∈ segs, checkSegment seg = some .ok ∧ flag .syn seg = some true) ∧
      (s.status = .listen ∨ s.status = .synReceived) := by
  have hrec : ∀ (segs : List Bytes) (s : Stream), s.status = .synReceived →
      receiveAll ins s segs = some s := by
    intro segs
    induction segs with
    | nil => intros; rfl
    | cons seg segs ih =>
      intro s hs
      have hr : ∃ e, receive ins s seg = some (s, e) := by
        by_cases hc : checkSegment seg = some .ok
        · exact ⟨.ok, by rw [receive_ok ins s seg hc, hs]⟩
        · obtain ⟨e, _, he⟩ := (C48_total ins s seg).2 hc
          exact ⟨e, he⟩
      obtain ⟨e, he⟩ := hr
      rw [receiveAll, he, Option.bind_some]
      exact ih s hs
  have hmain : ∀ (segs : List Bytes) (s1 : Stream), s1.status = .listen → 
      ∃ s, receiveAll ins s1 segs = some s ∧ s.buf = s1.buf ∧ s.scheduled = s1.scheduled ∧
      (s.status = .synReceived ↔
        ∃ seg ∈ segs, checkSegment seg = some .ok ∧ flag .syn seg = some true) ∧
      (s.status = .listen ∨ s.status = .synReceived) := by
    intro segs
    induction segs with
    | nil => intro s1 h1; exact ⟨s1, rfl, rfl, rfl, by simp [h1], .inl h1⟩
    | cons seg segs ih =>
      intro s1 h1
      by_cases hc : checkSegment seg = some .ok
      · obtain ⟨b, hb⟩ := flag_isSome seg hc .syn
        have hr : receive ins s1 seg = some (if b then { s1 with status := .synReceived } else s1, .ok) := by
          rw [receive_ok ins s1 seg hc, h1]; simp [onListen, hb]
        rw [receiveAll, hr, Option.bind_some]
        cases b with
        | true =>
          refine ⟨{ s1 with status := .synReceived }, hrec segs _ rfl, rfl, rfl, ?_, .inr rfl⟩
          exact ⟨fun _ => ⟨seg, by simp, hc, hb⟩, fun _ => rfl⟩
        | false =>
          obtain ⟨s, h2, h3, h4, h5, h6⟩ := ih s1 h1
          refine ⟨s, h2, h3, h4, ?_, h6⟩
          rw [h5]
          constructor
          · rintro ⟨x, hx, hxx⟩; exact ⟨x, by simp [hx], hxx⟩
          · rintro ⟨x, hx, hx1, hx2⟩
            rcases List.mem_cons.1 hx with rfl | hx
            · rw [hb] at hx2; cases hx2
            · exact ⟨x, hx, hx1, hx2⟩
      · obtain ⟨e, _, he⟩ := (C48_total ins s1 seg).2 hc
        rw [receiveAll, he, Option.bind_some]
        obtain ⟨s, h2, h3, h4, h5, h6⟩ := ih s1 h1
        refine ⟨s, h2, h3, h4, ?_, h6⟩
        rw [h5]
        constructor
        · rintro ⟨x, hx, hxx⟩; exact ⟨x, by simp [hx], hxx⟩
        · rintro ⟨x, hx, hx1, hx2⟩
          rcases List.mem_cons.1 hx with rfl | hx
          · exact absurd hx1 hc
          · exact ⟨x, hx, hx1, hx2⟩
  exact hmain segs (init s0) rfl

example : receiveAll refusing (init ⟨0, .unset, 0#32, [], 0⟩)
    [segment 0 0 0 7 2 [], segment 0 0 0 8 16 [], segment 0 0 0 8 24 [1, 2]] =
    some ⟨536, .synReceived, 0#32, [], 0⟩ := by decide

/-- C48: a stream that was opened waits until a segment with both the SYN and the ACK flag arrives,
and is then established; what arrives before is not delivered. -/
theorem C48_active_open (ins : InsertFn) (s : Stream) (segs : List Bytes) (seg : Bytes)
    (hno : ∀ x ∈ segs, ¬ (checkSegment x = some .ok ∧ flag .syn x = some true ∧
      flag .ack x = some true))
    (hc : checkSegment seg = some .ok) (hsyn : flag .syn seg = some true)
    (hack : flag .ack seg = some true) :
    receiveAll ins (openStream s) segs = some (openStream s) ∧
    receiveAll ins (openStream s) (segs ++ [seg]) =
      some { openStream s with status := .established } := by
  have hstep : ∀ x, ¬ (checkSegment x = some .ok ∧ flag .syn x = some true ∧
      flag .ack x = some true) → ∃ e, receive ins (openStream s) x = some (openStream s, e) := by
    intro x hx
    by_cases hcx : checkSegment x = some .ok
    · obtain ⟨b1, h1⟩ := flag_isSome x hcx .syn
      obtain ⟨b2, h2⟩ := flag_isSome x hcx .ack
      refine ⟨.ok, ?_⟩
      rw [receive_ok ins _ x hcx]
      cases b1 <;> cases b2 <;> simp_all [openStream, onSynSent]
    · obtain ⟨e, _, he⟩ := (C48_total ins (openStream s) x).2 hcx
      exact ⟨e, he⟩
  have hlast : receiveAll ins (openStream s) [seg] =
      some { openStream s with status := .established } := by
    simp [receiveAll, receive_ok ins _ seg hc, openStream, onSynSent, hsyn, hack]
  induction segs with
  | nil => exact ⟨rfl, hlast⟩
  | cons x segs ih =>
    obtain ⟨e, he⟩ := hstep x (hno x (by simp))
    obtain ⟨h1, h2⟩ := ih (fun y hy => hno y (by simp [hy]))
    constructor
    · rw [receiveAll, he, Option.bind_some]; exact h1
    · rw [List.cons_append, receiveAll, he, Option.bind_some]; exact h2

example : receiveAll refusing (openStream ⟨536, .listen, 0#32, [], 0⟩)
    [segment 0 0 0 7 16 [], segment 0 0 0 7 18 []] =
    some ⟨536, .established, 0#32, [], 0⟩ := by decide

/-- C272 is violated: the peer's initial sequence number is not taken from its SYN.  After a
handshake in which the peer chose `isn`, its first data segment, numbered `isn + 1`, is not appended
unless `isn + 1` happens to be the number the stream had before. -/
theorem C272_initial_number_violated (ins : InsertFn) (s : Stream) (syn seg p : Bytes) (isn : U32)
    (hc : Carries syn isn []) (hsyn : flag .syn syn = some true) (hack : flag .ack syn = some true)
    (hd : Carries seg (isn + 1#32) p) (hne : isn + 1#32 ≠ s.next) :
    ∃ s1, receiveAll ins (openStream s) [syn] = some s1 ∧ s1.status = .established ∧
      s1.next = s.next ∧
      receive ins s1 seg = some (validateSequence ins s1 (isn + 1#32) p) := by
  have h := (C48_active_open ins s [] syn (by simp) hc.1 hsyn hack).2
  refine ⟨_, h, rfl, rfl, ?_⟩
  exact (receive_established ins _ seg _ p rfl hd).2.2 hne

example : (receiveAll refusing (openStream ⟨536, .listen, 0#32, [], 0⟩)
    [segment 0 0 0 7 18 [], segment 0 0 0 8 24 [1, 2]]) =
    some ⟨536, .established, 0#32, [], 0⟩ := by decide

/-- C272 is violated: nothing the peer sends ends an established stream, in particular neither a FIN
nor a RST segment, and a stream in one of the closing states never leaves it. -/
theorem C272_never_closes_violated (ins : InsertFn) (s : Stream) (segs : List Bytes)
    (hs : s.status ≠ .listen) (hs2 : s.status ≠ .synSent) :
    ∃ s', receiveAll ins s segs = some s' ∧ s'.status = s.status := by
  induction segs generalizing s with
  | nil => exact ⟨s, rfl, rfl⟩
  | cons seg segs ih =>
    have hstep : ∃ s1 e, receive ins s seg = some (s1, e) ∧ s1.status = s.status := by
      by_cases hc : checkSegment seg = some .ok
      · by_cases he : s.status = .established
        · obtain ⟨_, _, _, d, _, hp⟩ := C33_checked_reads seg hc
          have hl := ((C33_check seg).1.1 hc).1
          obtain ⟨sn, hsn0⟩ : ∃ sn, sequenceNumber seg = some sn :=
            ⟨_, C32_layout .sequenceNumber seg hl⟩
          obtain ⟨h0, ha, hb⟩ := receive_established ins s seg _ _ he ⟨hc, hsn0, hp⟩
          by_cases hsn : sn = s.next
          · obtain ⟨n, hn⟩ := ha hsn
            exact ⟨_, _, hn, rfl⟩
          · refine ⟨_, _, hb hsn, ?_⟩
            split <;> rfl
        · rw [receive_ok ins s seg hc]
          cases h : s.status <;> simp_all
      · obtain ⟨e, _, he⟩ := (C48_total ins s seg).2 hc
        exact ⟨s, e, he, rfl⟩
    obtain ⟨s1, e, h1, h2⟩ := hstep
    obtain ⟨s', h3, h4⟩ := ih s1 (by rw [h2]; exact hs) (by rw [h2]; exact hs2)
    exact ⟨s', by rw [receiveAll, h1, Option.bind_some]; exact h3, by rw [h4, h2]⟩

example : (receiveAll refusing ⟨536, .established, 7#32, [], 0⟩
    [segment 0 0 0 7 1 [], segment 0 0 0 8 4 []]) =
    some ⟨536, .established, 9#32, [], 0⟩ := by decide

/-- The states in which RFC 793 (section 3.8, ABORT) asks for a reset to be sent. -/
theorem C48_need_reset (s : Stream) :
    needReset s = true ↔
      s.status ∈ [Status.synReceived, .established, .finWait1, .finWait2, .closeWait] := by
  cases h : s.status <;> simp [needReset, h]

/-! ## C90: options -/

/-- C90: options that are all maximum segment size options, possibly followed by an end mark and
anything, are handled in finitely many rounds.
Missing: every other option list and option kind (refuted: `C90_other_option_violated`,
`C90_truncated_violated`, `C90_next_violated` and others). -/
theorem C90_mss_partial (os : List Bytes) (tail : Bytes) (hos : ∀ o ∈ os, o.length = 3)
    (ht : tail = [] ∨ ∃ r, tail = 0#8 :: r) (fuel : Nat) (hf : os.length < fuel) :
    handleOptions fuel ((os.map (fun o => 2#8 :: o)).flatten ++ tail) = .done := by
  induction os generalizing fuel with
  | nil =>
    cases fuel with
    | zero => omega
    | succ fuel =>
      rcases ht with rfl | ⟨r, rfl⟩
      · rfl
      · simp [handleOptions]
  | cons o os ih =>
    cases fuel with
    | zero => omega
    | succ fuel =>
      have ho : o.length = 3 := hos o (by simp)
      simp only [List.map_cons, List.flatten_cons, List.cons_append, List.append_assoc, handleOptions]
      rw [if_neg (by decide), if_pos trivial, if_pos (by simp; omega), List.drop_left' ho]
      exact ih (fun x hx => hos x (by simp [hx])) fuel (by simp at hf; omega)

example : handleOptions 3 ([2, 4, 5, 0xb4] ++ [0, 0, 0, 0]) = .done := by decide

/-- C90 is violated: as soon as the options, after any maximum segment size options, contain one of
any other kind, including the one-byte no-operation, the loop never ends. -/
theorem C90_other_option_violated (os : List Bytes) (k : Byte) (tail : Bytes)
    (hos : ∀ o ∈ os, o.length = 3) (hk : k ≠ 0#8) (hk2 : k ≠ 2#8) (fuel : Nat) :
    handleOptions fuel ((os.map (fun o => 2#8 :: o)).flatten ++ k :: tail) = .running := by
  induction os generalizing fuel with
  | nil =>
    simp only [List.map_nil, List.flatten_nil, List.nil_append]
    induction fuel with
    | zero => rfl
    | succ fuel ih => rw [handleOptions, if_neg hk, if_neg hk2]; exact ih
  | cons o os ih =>
    cases fuel with
    | zero => rfl
    | succ fuel =>
      have ho : o.length = 3 := hos o (by simp)
      simp only [List.map_cons, List.flatten_cons, List.cons_append, List.append_assoc, handleOptions]
      rw [if_neg (by decide), if_pos trivial, if_pos (by simp; omega), List.drop_left' ho]
      exact ih (fun x hx => hos x (by simp [hx])) fuel

example : handleOptions 1000 [2, 4, 5, 0xb4, 1, 3, 3, 7] = .running :=
  C90_other_option_violated [[4, 5, 0xb4]] 1 [3, 3, 7] (by decide) (by decide) (by decide) 1000

/-- C90 is violated: a maximum segment size option that is cut off panics. -/
theorem C90_truncated_violated (os : List Bytes) (tail : Bytes)
    (hos : ∀ o ∈ os, o.length = 3) (ht : tail.length < 3) (fuel : Nat) (hf : os.length < fuel) :
    handleOptions fuel ((os.map (fun o => 2#8 :: o)).flatten ++ 2#8 :: tail) = .panic := by
  induction os generalizing fuel with
  | nil =>
    cases fuel with
    | zero => omega
    | succ fuel => simp [handleOptions]; omega
  | cons o os ih =>
    cases fuel with
    | zero => omega
    | succ fuel =>
      have ho : o.length = 3 := hos o (by simp)
      simp only [List.map_cons, List.flatten_cons, List.cons_append, List.append_assoc, handleOptions]
      rw [if_neg (by decide), if_pos trivial, if_pos (by simp; omega), List.drop_left' ho]
      exact ih (fun x hx => hos x (by simp [hx])) fuel (by simp at hf; omega)

example : handleOptions 5 [2, 4, 5] = .panic := by decide

/-- The length of each option on the wire, kind and length bytes included: RFC 793, 7323, 2018, 1072,
1693, 1644, 1146. -/
def rfcLength : OptionKind → Nat
  | .mss => 4
  | .windowScale => 3
  | .sackPermitted => 2
  | .echo => 6
  | .echoReply => 6
  | .timestamps => 10
  | .partialOrderPermitted => 2
  | .partialOrderProfile => 3
  | .cc => 6
  | .ccNew => 6
  | .ccEcho => 6
  | .altChecksum => 3

/-- C90: which options lead to the option that follows them.
Missing: every other option list and option kind (refuted: `C90_other_option_violated`,
`C90_truncated_violated`, `C90_next_violated` and others). -/
theorem C90_next_partial (k : OptionKind)
    (hk : k ∉ [.timestamps, .partialOrderPermitted, .partialOrderProfile, .altChecksum])
    (body rest : Bytes) (hb : body.length + 1 = rfcLength k) :
    nextOption k (body ++ rest) = some rest := by
  have hl : body.length = k.nextOffset := by
    cases k <;> simp_all [rfcLength, OptionKind.nextOffset]
  rw [nextOption, sliceFrom, if_pos (by simp; omega), List.drop_left' hl]

example : nextOption .windowScale [3, 7, 2, 4, 5, 0xb4] = some [2, 4, 5, 0xb4] := by decide

/-- C90 is violated for the other four kinds: what follows is not found, for no option of that kind
and no options behind it. -/
theorem C90_next_violated (k : OptionKind)
    (hk : k ∈ [OptionKind.timestamps, .partialOrderPermitted, .partialOrderProfile, .altChecksum])
    (body rest : Bytes) (hb : body.length + 1 = rfcLength k) :
    nextOption k (body ++ rest) ≠ some rest := by
  intro h
  rw [nextOption, sliceFrom] at h
  split at h
  · have := congrArg List.length (Option.some.inj h)
    rw [List.length_drop, List.length_append] at this
    rename_i hle
    rw [List.length_append] at hle
    cases k <;> simp_all [rfcLength, OptionKind.nextOffset] <;> omega
  · cases h

example : nextOption .timestamps [10, 1, 1, 1, 1, 2, 2, 2, 2, 0] = some [2, 0] := by decide

/-- C90 violated: where these four lead: behind timestamps, to the last byte of the option itself; behind the others, past the one or two first
bytes of what follows, with a panic when there are not as many. -/
theorem C90_next_lands_violated (body rest : Bytes) :
    (body.length + 1 = rfcLength .timestamps → nextOption .timestamps (body ++ rest) = some (body.drop 8 ++ rest) ∧ (body.drop 8).length = 1) ∧
    (body.length + 1 = rfcLength .partialOrderPermitted → nextOption .partialOrderPermitted (body ++ rest) = sliceFrom rest 2) ∧
    (body.length + 1 = rfcLength .partialOrderProfile → nextOption .partialOrderProfile (body ++ rest) = sliceFrom rest 1) ∧
    (body.length + 1 = rfcLength .altChecksum → nextOption .altChecksum (body ++ rest) = sliceFrom rest 1) := by
  have key : ∀ k n, n + body.length = k → sliceFrom (body ++ rest) k = sliceFrom rest n := by
    intro k n h
    subst h
    simp only [sliceFrom, List.length_append]
    rw [List.drop_append, List.drop_eq_nil_of_le (by omega), List.nil_append, Nat.add_sub_cancel]
    by_cases hc : n ≤ rest.length
    · rw [if_pos (by omega), if_pos hc]
    · rw [if_neg (by omega), if_neg hc]
  refine ⟨fun h => ?_, fun h => ?_, fun h => ?_, fun h => ?_⟩ <;> simp only [rfcLength] at h <;>
    simp only [nextOption, OptionKind.nextOffset]
  · refine ⟨?_, by simp; omega⟩
    rw [sliceFrom, if_pos (by simp; omega), List.drop_append, show 8 - body.length = 0 by omega, List.drop_zero]
  · exact key 3 2 (by omega)
  · exact key 3 1 (by omega)
  · exact key 3 1 (by omega)

example : nextOption .altChecksum [3, 1, 2, 4, 5, 0xb4] = some [4, 5, 0xb4] := by decide

/-! ## C91: SYN retries -/

/-- `n` retries. -/
def retries (r : Retry) : Nat → Retry
  | 0 => r
  | n + 1 => retrySend (retries r n)

theorem retries_eq (r : Retry) (n : Nat) : retries r n = ⟨r.max, r.count + BitVec.ofNat 8 n⟩ := by
  induction n with
  | zero => simp [retries]
  | succ n ih => simp [retries, ih, retrySend, BitVec.ofNat_add, BitVec.add_assoc]

/-- C91: for a fresh stream the limit is reported exactly when more than six SYNs, respectively more
than five SYN-ACKs, were counted, for fewer than 256.
Missing: 256 or more segments, and streams that are reused (refuted: `C91_wraps_violated`,
`C91_reinit_violated`). -/
theorem C91_limit_partial (m : U8) (n : Nat) (hn : n < 256) :
    (reachMax (retries (synInit ⟨m, 0#8⟩) n) = true ↔ 6 < n) ∧
    (reachMax (retries (synAckInit ⟨m, 0#8⟩) n) = true ↔ 5 < n) := by
  simp [retries_eq, reachMax, synInit, synAckInit, BitVec.ult]
  omega

/-- C91 is violated: the counter wraps, and once it has the limit is not reported. -/
theorem C91_wraps_violated (m : U8) (n : Nat) (hn : n % 256 ≤ 5) :
    reachMax (retries (synInit ⟨m, 0#8⟩) n) = false ∧
    reachMax (retries (synAckInit ⟨m, 0#8⟩) n) = false := by
  simp [retries_eq, reachMax, synInit, synAckInit, BitVec.ult]
  omega

/-- C91 is violated: `Reinit` keeps the count, so a reused stream starts with the retries of the one
before. -/
theorem C91_reinit_violated (m : U8) (n : Nat) (hn : n < 256) (h : 6 < n) :
    reachMax (synInit (retries (synInit ⟨m, 0#8⟩) n)) = true ∧
    reachMax (synAckInit (retries (synAckInit ⟨m, 0#8⟩) n)) = true := by
  simp [retries_eq, reachMax, synInit, synAckInit, BitVec.ult]
  omega

example : reachMax (retries (synInit ⟨0#8, 0#8⟩) 7) = true ∧
    reachMax (retries (synInit ⟨0#8, 0#8⟩) 256) = false :=
  ⟨(C91_limit_partial 0#8 7 (by decide)).1.2 (by decide), (C91_wraps_violated 0#8 256 (by decide)).1⟩

end Memar.Tcp
