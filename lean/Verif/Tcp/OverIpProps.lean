import Verif.Tcp.OverIp
import Verif.Net.TcpProps

/-!
# C136: TCP segments that arrive over IP
-/

namespace Memar.Tcp.OverIp
open Memar Net Net.Tcp Memar.Tcp

/-! ## Specification -/

namespace OSpec

/-- The big-endian number in two bytes. -/
def be16 (a b : Byte) : U16 := BitVec.ofNat 16 (a.toNat * 256 + b.toNat)

/-- The connection a segment belongs to: the addresses, and the ports in its first four bytes. -/
def keyOf (src dst : Bytes) : Bytes → Option Key
  | a :: b :: c :: d :: _ => some ⟨src, be16 a b, dst, be16 c d⟩
  | _ => none

/-- A segment of the right form: 20 bytes at least, and not shorter than its header says. -/
def WellFormed (seg : Bytes) : Prop := ∃ b : Byte, seg[12]? = some b ∧ 20 ≤ seg.length ∧ 4 * (b.toNat / 16) ≤ seg.length

end OSpec
open OSpec

theorem ports (src dst seg : Bytes) :
    (∀ k, keyOf src dst seg = some k → sourcePort seg = some k.srcPort ∧ destinationPort seg = some k.dstPort ∧ k.srcIP = src ∧ k.dstIP = dst) ∧
    (keyOf src dst seg = none → sourcePort seg = none ∨ destinationPort seg = none) := by
  match seg with
  | [] => exact ⟨by simp [keyOf], fun _ => .inl rfl⟩
  | [a] => exact ⟨by simp [keyOf], fun _ => .inl rfl⟩
  | [a, b] => exact ⟨by simp [keyOf], fun _ => .inr rfl⟩
  | [a, b, c] => exact ⟨by simp [keyOf], fun _ => .inr rfl⟩
  | a :: b :: c :: d :: r =>
    refine ⟨fun k hk => ?_, by simp [keyOf]⟩
    simp only [keyOf, Option.some.injEq] at hk
    subst hk
    refine ⟨?_, ?_, rfl, rfl⟩
    · rw [sourcePort, get16_eq, if_pos (by simp)]
      simp [region, be16, Binary.Spec.beVal, Binary.Spec.leVal]; congr 1; omega
    · rw [destinationPort, get16_eq, if_pos (by simp)]
      simp [region, be16, Binary.Spec.beVal, Binary.Spec.leVal]; congr 1; omega

theorem receive4_key (ins : InsertFn) (t : Table) (src dst seg : Bytes) :
    receive4 ins t src dst seg = match keyOf src dst seg with | some k => deliver ins t k seg | none => (t, .panic) := by
  obtain ⟨h1, h2⟩ := ports src dst seg
  unfold receive4
  cases hk : keyOf src dst seg with
  | some k =>
    obtain ⟨e1, e2, e3, e4⟩ := h1 k hk
    rw [e1, e2]; simp only [← e3, ← e4]
  | none =>
    rcases h2 hk with h | h
    · rw [h]
    · rw [h]; cases sourcePort seg <;> rfl

theorem receive6_key (service : U16 → Bool) (ins : InsertFn) (t : Table) (src dst seg : Bytes) :
    receive6 service ins t src dst seg = match keyOf src dst seg with
      | some k => if service k.dstPort = false then (t, .noService) else deliver ins t k seg
      | none => (t, .panic) := by
  obtain ⟨h1, h2⟩ := ports src dst seg
  unfold receive6
  cases hk : keyOf src dst seg with
  | some k =>
    obtain ⟨e1, e2, e3, e4⟩ := h1 k hk
    rw [e1, e2]; simp only [← e3, ← e4]
  | none =>
    rcases h2 hk with h | h
    · rw [h]
    · rw [h]; cases sourcePort seg <;> rfl

theorem deliver_other (ins : InsertFn) (t : Table) (k k' : Key) (seg : Bytes) (h : k' ≠ k) : (deliver ins t k seg).1 k' = t k' := by
  unfold deliver
  split
  · split
    · simp [Table.set, h]
    · rfl
  · simp [Table.set, h]

theorem words (b : Byte) : ((b >>> 4) * 4#8).toNat = 4 * (b.toNat / 16) := by
  have := b.isLt
  simp only [BitVec.toNat_mul, BitVec.toNat_ushiftRight, Nat.shiftRight_eq_div_pow, BitVec.toNat_ofNat]
  omega

theorem receiveNil_wellFormed (seg : Bytes) (h : WellFormed seg) : receiveNil seg = .panic := by
  obtain ⟨b, hb, h1, h2⟩ := h
  have : checkSegment seg = some .ok := by
    unfold checkSegment
    rw [if_neg (by simp only [minSize]; omega), dataOffset, hb]
    simp only [Option.map_some]
    rw [if_neg (by rw [words]; omega)]
  simp [receiveNil, this]

/-! ## C136 -/

/-- C271: a segment of a connection with a stream goes to that stream and to no other: the result is that of the stream, the stream is changed as
the segment changes it, and no other entry changes. Missing: connections without a stream, see below. -/
theorem C271_known_partial (ins : InsertFn) (t : Table) (src dst seg : Bytes) (k : Key) (st st' : Stream) (e : Err)
    (hk : keyOf src dst seg = some k) (ht : t k = some (some st)) (hr : receive ins st seg = some (st', e)) :
    receive4 ins t src dst seg = (fun k' => if k' = k then some (some st') else t k', .ret e) ∧
    ∀ service : U16 → Bool, service k.dstPort = true →
      receive6 service ins t src dst seg = (fun k' => if k' = k then some (some st') else t k', .ret e) := by
  refine ⟨?_, fun service hs => ?_⟩
  · rw [receive4_key, hk]; simp only [deliver, ht, hr]; rfl
  · rw [receive6_key, hk]; simp only [hs, deliver, ht, hr]; rfl

/-- C136: segments change no entry but those of their own connections, for any number of segments. -/
theorem C136_isolated (ins : InsertFn) (k : Key) (ps : List (Bytes × Bytes × Bytes)) (h : ∀ p ∈ ps, keyOf p.1 p.2.1 p.2.2 ≠ some k) (t : Table) :
    run4 ins t ps k = t k ∧ ∀ service, run6 service ins t ps k = t k := by
  constructor
  · induction ps generalizing t with
    | nil => rfl
    | cons p ps ih =>
      rw [run4, ih (fun q hq => h q (by simp [hq]))]
      have hp := h p (by simp)
      rw [receive4_key]
      cases hk : keyOf p.1 p.2.1 p.2.2 with
      | none => rfl
      | some k' => exact deliver_other ins t k' k p.2.2 (fun g => hp (by rw [hk, g]))
  · intro service
    induction ps generalizing t with
    | nil => rfl
    | cons p ps ih =>
      rw [run6, ih (fun q hq => h q (by simp [hq]))]
      have hp := h p (by simp)
      rw [receive6_key]
      cases hk : keyOf p.1 p.2.1 p.2.2 with
      | none => rfl
      | some k' =>
        simp only []
        split
        · rfl
        · exact deliver_other ins t k' k p.2.2 (fun g => hp (by rw [hk, g]))

/-- C136: over IPv6 a segment to a port without a service is refused with an error and changes nothing. -/
theorem C136_no_service (service : U16 → Bool) (ins : InsertFn) (t : Table) (src dst seg : Bytes) (k : Key)
    (hk : keyOf src dst seg = some k) (hs : service k.dstPort = false) : receive6 service ins t src dst seg = (t, .noService) := by
  rw [receive6_key, hk]; simp [hs]

theorem dead_deliver (ins : InsertFn) (t : Table) (k : Key) (seg : Bytes) (ht : ∀ k st, t k ≠ some (some st)) (k' : Key) (st : Stream) :
    (deliver ins t k seg).1 k' ≠ some (some st) := by
  unfold deliver
  split
  · rename_i s hs; exact absurd hs (ht k s)
  · simp only [Table.set]
    split
    · simp
    · exact ht k' st

/-- C271 violated: no stream is ever made. Whatever arrives, from the start on, every segment of the right form makes the receiver panic, over IPv4
always and over IPv6 when there is a service for the port. -/
theorem C271_new_violated (ins : InsertFn) (ps : List (Bytes × Bytes × Bytes)) (src dst seg : Bytes) (h : WellFormed seg) :
    (receive4 ins (run4 ins Table.empty ps) src dst seg).2 = .panic ∧
    ∀ service : U16 → Bool, (∀ p, service p = true) → (receive6 service ins (run6 service ins Table.empty ps) src dst seg).2 = .panic := by
  have key : ∀ (t : Table), (∀ k st, t k ≠ some (some st)) → ∀ k, (deliver ins t k seg).2 = .panic := by
    intro t ht k
    unfold deliver
    split
    · rename_i s hs; exact absurd hs (ht k s)
    · exact receiveNil_wellFormed seg h
  have d4 : ∀ (ps : List (Bytes × Bytes × Bytes)) (t : Table), (∀ k st, t k ≠ some (some st)) → ∀ k st, run4 ins t ps k ≠ some (some st) := by
    intro ps
    induction ps with
    | nil => intro t ht; exact ht
    | cons p ps ih =>
      intro t ht
      rw [run4]
      refine ih _ ?_
      rw [receive4_key]
      cases keyOf p.1 p.2.1 p.2.2 with
      | none => exact ht
      | some k => exact fun k' st => dead_deliver ins t k p.2.2 ht k' st
  have d6 : ∀ service (ps : List (Bytes × Bytes × Bytes)) (t : Table), (∀ k st, t k ≠ some (some st)) →
      ∀ k st, run6 service ins t ps k ≠ some (some st) := by
    intro service ps
    induction ps with
    | nil => intro t ht; exact ht
    | cons p ps ih =>
      intro t ht
      rw [run6]
      refine ih _ ?_
      rw [receive6_key]
      cases keyOf p.1 p.2.1 p.2.2 with
      | none => exact ht
      | some k =>
        simp only []
        split
        · exact ht
        · exact fun k' st => dead_deliver ins t k p.2.2 ht k' st
  have he : ∀ k st, Table.empty k ≠ some (some st) := by intro k st; simp [Table.empty]
  refine ⟨?_, fun service hs => ?_⟩
  · rw [receive4_key]
    cases keyOf src dst seg with
    | none => rfl
    | some k => exact key _ (d4 ps _ he) k
  · rw [receive6_key]
    cases keyOf src dst seg with
    | none => rfl
    | some k => simp only [hs]; exact key _ (d6 service ps _ he) k

/-- C271 violated: the table only grows. Each connection of which a segment with ports has arrived, of the right form or not, has an entry for ever,
whatever arrives before and after. -/
theorem C271_grows_violated (ins : InsertFn) (t : Table) (ps qs : List (Bytes × Bytes × Bytes)) (src dst seg : Bytes) (k : Key)
    (hk : keyOf src dst seg = some k) : (run4 ins t (ps ++ (src, dst, seg) :: qs) k).isSome = true := by
  have keep : ∀ (qs : List (Bytes × Bytes × Bytes)) (t : Table), (t k).isSome = true → (run4 ins t qs k).isSome = true := by
    intro qs
    induction qs with
    | nil => intro t h; exact h
    | cons q qs ih =>
      intro t h
      rw [run4]
      refine ih _ ?_
      rw [receive4_key]
      cases keyOf q.1 q.2.1 q.2.2 with
      | none => exact h
      | some k' =>
        by_cases hc : k = k'
        · subst hc
          simp only [deliver]
          split
          · split
            · simp [Table.set]
            · exact h
          · simp [Table.set]
        · show ((deliver ins t k' q.2.2).1 k).isSome = true
          rw [deliver_other ins t k' k q.2.2 hc]; exact h
  induction ps generalizing t with
  | nil =>
    rw [List.nil_append, run4]
    refine keep qs _ ?_
    rw [receive4_key, hk]
    simp only [deliver]
    split
    · rename_i s hs
      split
      · simp [Table.set]
      · simp [hs]
    · simp [Table.set]
  | cons p ps ih => rw [List.cons_append, run4]; exact ih _

/-- C271 violated: a segment of fewer than four bytes makes the receiver panic before anything is checked. -/
theorem C271_short_violated (service : U16 → Bool) (ins : InsertFn) (t : Table) (src dst seg : Bytes) (h : seg.length < 4) :
    receive4 ins t src dst seg = (t, .panic) ∧ receive6 service ins t src dst seg = (t, .panic) := by
  have hk : keyOf src dst seg = none := by
    match seg, h with
    | [], _ => rfl
    | [_], _ => rfl
    | [_, _], _ => rfl
    | [_, _, _], _ => rfl
  rw [receive4_key, receive6_key, hk]; exact ⟨rfl, rfl⟩

/-- C271: a segment with ports that is not of the right form gives an error, whether or not there is a stream. Missing: shorter ones. -/
theorem C271_malformed_partial (ins : InsertFn) (t : Table) (src dst seg : Bytes) (h4 : 4 ≤ seg.length) (hw : ¬ WellFormed seg) :
    ∃ e, e ≠ Err.ok ∧ (receive4 ins t src dst seg).2 = .ret e := by
  obtain ⟨k, hk⟩ : ∃ k, keyOf src dst seg = some k := by
    match seg, h4 with
    | a :: b :: c :: d :: r, _ => exact ⟨_, rfl⟩
  rw [receive4_key, hk]
  have hc : checkSegment seg = some .tooShort ∨ checkSegment seg = some .wrongLength := by
    unfold checkSegment
    split
    · exact .inl rfl
    · rename_i hm
      simp only [minSize] at hm
      right
      rw [dataOffset, List.getElem?_eq_getElem (by omega)]
      simp only [Option.map_some]
      rw [if_pos]
      refine Nat.lt_of_not_le fun g => hw ⟨_, List.getElem?_eq_getElem (by omega), by omega, by rw [words] at g; exact g⟩
  simp only [deliver, receiveNil, receive]
  rcases hc with hc | hc <;> rw [hc]
  · refine ⟨.tooShort, by decide, ?_⟩
    split <;> rfl
  · refine ⟨.wrongLength, by decide, ?_⟩
    split <;> rfl

/-! ## Examples -/

/-- A first segment (SYN) from port 258 to port 80. -/
def syn : Bytes := [1, 2, 0, 80, 0, 0, 0, 0, 0, 0, 0, 0, 80, 2, 0, 0, 0, 0, 0, 0]
example : WellFormed syn := ⟨80, rfl, by decide, by decide⟩
example : keyOf [1] [2] syn = some ⟨[1], 258, [2], 80⟩ := by decide
example : receive4 (fun _ _ _ => none) Table.empty [1] [2] syn = ((Table.empty).set ⟨[1], 258, [2], 80⟩ none, .panic) := rfl
example : receive (fun _ _ _ => none) (init ⟨0, .unset, 0, [], 0⟩) syn = some (⟨536, .synReceived, 0, [], 0⟩, .ok) := rfl
example : ¬ WellFormed [1, 2, 0, 80] := by rintro ⟨b, h, -⟩; simp at h

example := C271_known_partial (fun _ _ _ => none) (Table.empty.set ⟨[1], 258, [2], 80⟩ (some (init ⟨0, .unset, 0, [], 0⟩))) [1] [2] syn
  ⟨[1], 258, [2], 80⟩ (init ⟨0, .unset, 0, [], 0⟩) ⟨536, .synReceived, 0, [], 0⟩ .ok (by decide) rfl rfl
example := C136_isolated (fun _ _ _ => none) ⟨[1], 258, [2], 80⟩ [([1], [3], syn), ([4], [2], syn), ([1], [2], [])]
  (by decide) (Table.empty.set ⟨[1], 258, [2], 80⟩ none)
example := C136_no_service (fun p => p == 443) (fun _ _ _ => none) Table.empty [1] [2] syn ⟨[1], 258, [2], 80⟩ (by decide) (by decide)
example := C271_new_violated (fun _ _ _ => none) [([1], [3], syn)] [1] [2] syn ⟨80, rfl, by decide, by decide⟩
example := C271_grows_violated (fun _ _ _ => none) Table.empty [([1], [3], syn)] [([1], [5], syn)] [1] [2] syn ⟨[1], 258, [2], 80⟩ (by decide)
example := C271_short_violated (fun _ => true) (fun _ _ _ => none) Table.empty [1] [2] [1, 2, 0] (by decide)

end Memar.Tcp.OverIp
