import Verif.Tcp.Props

/-!
# A receive buffer that refuses bytes, C309

`Verif/Tcp/Model.lean` takes `Append` to succeed. Here what `Append` of the receive buffer does is a parameter, as what `Insert` does.
-/

namespace Memar.Tcp
open Memar Net Net.Tcp

/-! ## Model -/

/-- The receive buffer's `Append` (adt/protocol/container-operations.go:149-153): the content afterwards, of which part may have been added, and whether it answers an error. -/
abbrev AppendFn := Bytes → Bytes → Bytes × Bool

/-- net/tcp/stream-internal.go:57-81: when the push flag is set, line 69 puts the answer of `checkPushFlag`, which is nil, in the place of the error of `Append`. -/
def onEstablishedApp (app : AppendFn) (ins : InsertFn) (s : Stream) (seg : Bytes) : Option (Stream × Err) :=
  (payload seg).bind fun p =>
  (sequenceNumber seg).bind fun sn =>
    if sn = s.next then
      (flag .psh seg).map fun psh =>
        let s1 := sendACK s
        let a := app s1.buf p
        let s2 := { s1 with buf := a.1 }
        if psh then ({ s2 with scheduled := s2.scheduled + 1 }, .ok) else (s2, if a.2 then .buffer else .ok)
    else some (validateSequence ins s sn p)

/-- net/tcp/stream.go:114-152 `Receive` -/
def receiveApp (app : AppendFn) (ins : InsertFn) (s : Stream) (seg : Bytes) : Option (Stream × Err) :=
  (checkSegment seg).bind fun c =>
    match c with
    | .tooShort => some (s, .tooShort)
    | .wrongLength => some (s, .wrongLength)
    | .ok =>
      match s.status with
      | .listen => onListen s seg
      | .synSent => onSynSent s seg
      | .established => onEstablishedApp app ins s seg
      | _ => some (s, .ok)

/-- `Receive` for each segment that arrives, with what it answers. -/
def answersApp (app : AppendFn) (ins : InsertFn) (s : Stream) : List Bytes → Option (Stream × List Err)
  | [] => some (s, [])
  | seg :: segs => (receiveApp app ins s seg).bind fun r => (answersApp app ins r.1 segs).map fun q => (q.1, r.2 :: q.2)

/-! ## Specification -/

/-- Specification: a buffer with room for `n` bytes takes a payload as a whole or refuses it. -/
def Spec.room (n : Nat) : AppendFn := fun b p => if b.length + p.length ≤ n then (b ++ p, false) else (b, true)

/-- Specification: segments numbered one after the other, from `sn`, with their payloads and whether they are pushed. -/
def Spec.Numbered : U32 → List (Bytes × Bytes × Bool) → Prop
  | _, [] => True
  | sn, (seg, p, psh) :: rest => Carries seg sn p ∧ flag .psh seg = some psh ∧ Spec.Numbered (sn + 1#32) rest

/-- Specification: the payloads that a buffer with `n` bytes of room takes, from what it holds. -/
def Spec.taken (n : Nat) : Bytes → List Bytes → Bytes
  | b, [] => b
  | b, p :: ps => Spec.taken n (if b.length + p.length ≤ n then b ++ p else b) ps

/-! ## Proofs -/

theorem receiveApp_next (app : AppendFn) (ins : InsertFn) (s : Stream) (seg p : Bytes) (psh : Bool) (hs : s.status = .established) (h : Carries seg s.next p)
    (hb : flag .psh seg = some psh) :
    receiveApp app ins s seg = some ({ s with next := s.next + 1#32, buf := (app s.buf p).1, scheduled := s.scheduled + (if psh then 1 else 0) },
      if !psh && (app s.buf p).2 then .buffer else .ok) := by
  obtain ⟨h1, h2, h3⟩ := h
  simp only [receiveApp, h1, Option.bind_some, hs, onEstablishedApp, h3, h2, if_pos trivial, hb, Option.map_some, sendACK]
  cases psh <;> simp

/-- With an `Append` that always succeeds this is the model of `Verif/Tcp/Model.lean`, so what is proved there holds of such buffers. -/
theorem receiveApp_append (ins : InsertFn) (s : Stream) (seg : Bytes) : receiveApp (fun b p => (b ++ p, false)) ins s seg = receive ins s seg := by
  unfold receiveApp receive
  cases checkSegment seg with
  | none => rfl
  | some c =>
    cases c <;> simp only [Option.bind_some]
    cases s.status <;> simp only
    unfold onEstablishedApp onEstablished
    cases payload seg with
    | none => rfl
    | some p =>
      cases sequenceNumber seg with
      | none => rfl
      | some sn =>
        simp only [Option.bind_some]
        split
        · cases flag .psh seg with
          | none => rfl
          | some psh => cases psh <;> simp
        · rfl

/-- **C309**, the part that holds: when the expected segment is not pushed, `Receive` answers an error exactly if the buffer refused, and the buffer holds what `Append` left.
Missing: the same for pushed segments (refuted: `C309_pushed_violated`), and that a refused segment can be sent again (refuted: `C309_again_violated`). -/
theorem C309_reported_partial (app : AppendFn) (ins : InsertFn) (s : Stream) (seg p : Bytes) (hs : s.status = .established) (h : Carries seg s.next p)
    (hb : flag .psh seg = some false) :
    ∃ s' e, receiveApp app ins s seg = some (s', e) ∧ (e = .ok ↔ (app s.buf p).2 = false) ∧ s'.buf = (app s.buf p).1 ∧ s'.scheduled = s.scheduled := by
  refine ⟨_, _, receiveApp_next app ins s seg p false hs h hb, ?_, rfl, rfl⟩
  cases (app s.buf p).2 <;> simp

/-- C309 violated: when the buffer refuses the payload of a pushed segment, `Receive` answers no error, counts the segment as received, and asks the application to process
bytes that are not there. -/
theorem C309_pushed_violated (app : AppendFn) (ins : InsertFn) (s : Stream) (seg p : Bytes) (hs : s.status = .established) (h : Carries seg s.next p)
    (hb : flag .psh seg = some true) (hr : app s.buf p = (s.buf, true)) :
    receiveApp app ins s seg = some ({ s with next := s.next + 1#32, scheduled := s.scheduled + 1 }, .ok) := by
  rw [receiveApp_next app ins s seg p true hs h hb, hr]; rfl

/-- C309 violated: a refused segment is acknowledged all the same, before the buffer is asked: when the peer sends it again, as it does for what was not received, `Receive`
does not append it, though there be room by then: it is inserted 4294967295 places behind. -/
theorem C309_again_violated (app app' : AppendFn) (ins : InsertFn) (s : Stream) (seg p : Bytes) (psh : Bool) (hs : s.status = .established) (h : Carries seg s.next p)
    (hb : flag .psh seg = some psh) (hr : app s.buf p = (s.buf, true)) :
    ∃ s' e, receiveApp app ins s seg = some (s', e) ∧ s'.buf = s.buf ∧
      receiveApp app' ins s' seg = some (match ins s.buf 4294967295 p with | some b => ({ s' with buf := b }, .ok) | none => (s', .buffer)) := by
  refine ⟨_, _, receiveApp_next app ins s seg p psh hs h hb, by rw [hr], ?_⟩
  obtain ⟨h1, h2, h3⟩ := h
  simp only [receiveApp, h1, Option.bind_some, hs, onEstablishedApp, h3, h2]
  rw [if_neg (by
    intro e
    have := congrArg BitVec.toNat e
    rw [BitVec.toNat_add] at this
    have := s.next.isLt
    simp at *)]
  have hk : (s.next - (s.next + 1#32)).toNat = 4294967295 := by
    have := s.next.isLt
    rw [BitVec.toNat_sub, BitVec.toNat_add]
    simp only [BitVec.toNat_ofNat]
    omega
  simp only [validateSequence, hk, hr]
  cases ins s.buf 4294967295 p <;> rfl

/-- C309 violated, over every history: whatever segments the peer sends one after the other, numbered as the code counts, a buffer with room for `n` bytes leaves out every
payload that does not fit and takes later ones that do, so the bytes of the stream no longer follow one another; and of the pushed segments every one is answered without an error. -/
theorem C309_gaps_violated (n : Nat) (ins : InsertFn) (segs : List (Bytes × Bytes × Bool)) (s : Stream) (hs : s.status = .established)
    (hn : Spec.Numbered s.next segs) :
    ∃ s' es, answersApp (Spec.room n) ins s (segs.map (·.1)) = some (s', es) ∧ s'.buf = Spec.taken n s.buf (segs.map (·.2.1)) ∧
      es.length = segs.length ∧ ∀ x ∈ es.zip segs, x.2.2.2 = true → x.1 = .ok := by
  induction segs generalizing s with
  | nil => exact ⟨s, [], rfl, rfl, rfl, by simp⟩
  | cons x rest ih =>
    obtain ⟨seg, p, psh⟩ := x
    obtain ⟨hc, hb, hrest⟩ := hn
    have h := receiveApp_next (Spec.room n) ins s seg p psh hs hc hb
    obtain ⟨s', es, h1, h2, h3, h4⟩ := ih { s with next := s.next + 1#32, buf := (Spec.room n s.buf p).1, scheduled := s.scheduled + (if psh then 1 else 0) } hs hrest
    refine ⟨s', (if !psh && (Spec.room n s.buf p).2 then .buffer else .ok) :: es, ?_, ?_, by simp [h3], ?_⟩
    · simp only [List.map_cons, answersApp, h, Option.bind_some, h1, Option.map_some]
    · rw [h2]
      simp only [List.map_cons, Spec.taken, Spec.room]
      split <;> rfl
    · intro x hx hp
      rw [List.zip_cons_cons] at hx
      rcases List.mem_cons.mp hx with rfl | hx
      · simp only at hp
        simp [hp]
      · exact h4 x hx hp

example : Spec.Numbered 7#32 [(segment 0 0 0 7 0 [1, 2], [1, 2], false), (segment 0 0 0 8 8 [3, 4, 5], [3, 4, 5], true), (segment 0 0 0 9 8 [6], [6], true)] ∧
    answersApp (Spec.room 4) refusing ⟨536, .established, 7#32, [], 0⟩ [segment 0 0 0 7 0 [1, 2], segment 0 0 0 8 8 [3, 4, 5], segment 0 0 0 9 8 [6]] =
      some (⟨536, .established, 10#32, [1, 2, 6], 2⟩, [.ok, .ok, .ok]) :=
  ⟨⟨⟨rfl, rfl, rfl⟩, rfl, ⟨rfl, rfl, rfl⟩, rfl, ⟨rfl, rfl, rfl⟩, rfl, trivial⟩, by decide⟩

end Memar.Tcp
