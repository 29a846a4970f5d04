import Verif.Net.FramesModel
import Verif.Net.Field
import Verif.Syllab.Lemmas

/-!
# C39: the frame loop makes progress and ends
-/

namespace Memar.Net.Frames
open Memar Binary Binary.Spec Net

/-- The types the loop has a case for that can succeed. -/
def handled : List Byte := [3#8, 4#8, 5#8, 6#8, 7#8, 9#8, 11#8]

/-- The error frame, whose case always panics. -/
def errorType : Byte := 10#8

theorem sliceFrom_suffix {α} (f r : List α) (i : Nat) (h : sliceFrom f i = some r) : r <:+ f := by
  rw [sliceFrom] at h
  split at h
  · injection h with h; subst h; exact List.drop_suffix _ _
  · simp at h

theorem step_next_suffix (f r : Bytes) (x : Option Bytes)
    (hx : ∀ r, x = some r → r <:+ f) (h : x.map Step.next = some (.next r)) : r <:+ f := by
  obtain ⟨r', h1, h2⟩ := Option.map_eq_some_iff.1 h
  injection h2 with h2; subst h2
  exact hx _ h1

theorem nextBe_suffix (f r : Bytes) (h : nextBe f = some r) : r <:+ f := by
  rw [nextBe] at h
  obtain ⟨n, _, h⟩ := Option.bind_eq_some_iff.1 h
  exact sliceFrom_suffix _ _ _ h

theorem nextLe_suffix (f r : Bytes) (h : nextLe f = some r) : r <:+ f := by
  rw [nextLe] at h
  obtain ⟨n, _, h⟩ := Option.bind_eq_some_iff.1 h
  exact sliceFrom_suffix _ _ _ h

/-- C39: every frame of a handled type is consumed: what remains is a proper suffix. -/
theorem C39_progress (known : U64 → Bool) (t : Byte) (f r : Bytes) (ht : t ∈ handled)
    (h : step known (t :: f) = some (.next r)) : r <:+ f := by
  have h0 : (t :: f)[0]? = some t := rfl
  have h1 : sliceFrom (t :: f) 1 = some f := by simp [sliceFrom]
  rw [step, if_neg (by simp), h0, h1] at h
  simp only [Option.bind_some] at h
  simp only [handled, List.mem_cons, List.not_mem_nil, or_false] at ht
  rcases ht with rfl | rfl | rfl | rfl | rfl | rfl | rfl
  · refine step_next_suffix f r _ ?_ h
    intro r h
    rw [Chapar.nextFrame] at h
    obtain ⟨n, _, h⟩ := Option.bind_eq_some_iff.1 h
    exact sliceFrom_suffix _ _ _ h
  · exact step_next_suffix f r _ (fun r h => sliceFrom_suffix _ _ _ h) h
  · exact step_next_suffix f r _ (nextBe_suffix f) h
  · exact step_next_suffix f r _ (nextLe_suffix f) h
  · have h : ((openServiceID f).bind fun (id : U64) =>
          if known id then (nextOpen f).map Step.next else some (Step.returned true))
            = some (Step.next r) := h
    obtain ⟨id, _, h⟩ := Option.bind_eq_some_iff.1 h
    split at h
    · exact step_next_suffix f r _ (fun r h => sliceFrom_suffix _ _ _ h) h
    · simp at h
  · exact step_next_suffix f r _ (nextBe_suffix f) h
  · exact step_next_suffix f r _ (fun r h => sliceFrom_suffix _ _ _ h) h

example : step (fun _ => true) [5, 0, 3, 7, 11, 1, 2, 3, 4, 5, 6, 7, 8]
    = some (.next [11, 1, 2, 3, 4, 5, 6, 7, 8]) := by decide

theorem step_unhandled (known : U64 → Bool) (t : Byte) (f : Bytes) (ht : t ∉ handled)
    (he : t ≠ errorType) : step known (t :: f) = some (.next (t :: f)) := by
  simp only [handled, List.mem_cons, List.not_mem_nil, or_false, not_or] at ht
  obtain ⟨h3, h4, h5, h6, h7, h9, h11⟩ := ht
  have h0 : (t :: f)[0]? = some t := rfl
  rw [step, if_neg (by simp), h0]
  simp only [Option.bind_some]
  rw [if_neg h3, if_neg h4, if_neg h5, if_neg h6, if_neg h7, if_neg h9,
    if_neg (show t ≠ 10#8 from he), if_neg h11]

/-- C275: every packet in which the loop reaches a type without a case makes it run for ever. -/
theorem C275_unknown_violated (known : U64 → Bool) (t : Byte) (f : Bytes) (ht : t ∉ handled)
    (he : t ≠ errorType) (k : Nat) : run known k (t :: f) = .running (t :: f) := by
  induction k with
  | zero => rfl
  | succ k ih => rw [run, step_unhandled known t f ht he]; exact ih

/-- C39: the close stream frame, a type of the protocol, is one of them. -/
example (known : U64 → Bool) (k : Nat) : run known k [8, 1] = .running [8, 1] :=
  C275_unknown_violated known 8#8 [1] (by decide) (by decide) k

/-- C275: three bytes are enough: a padding, call service or data frame with the length zero is
followed, for the loop, by its own length, whose first byte is no frame type. -/
theorem C275_zero_length_violated (known : U64 → Bool) (t : Byte) (ht : t ∈ [5#8, 6#8, 9#8])
    (r : Bytes) (k : Nat) : ∃ fr, run known k (t :: 0#8 :: 0#8 :: r) = .running fr := by
  cases k with
  | zero => exact ⟨_, rfl⟩
  | succ k =>
    have hs : step known (t :: 0#8 :: 0#8 :: r) = some (.next (0#8 :: 0#8 :: r)) := by
      simp only [List.mem_cons, List.not_mem_nil, or_false] at ht
      have hb : nextBe (0#8 :: 0#8 :: r) = some (0#8 :: 0#8 :: r) := rfl
      have hl : nextLe (0#8 :: 0#8 :: r) = some (0#8 :: 0#8 :: r) := rfl
      have h1 : sliceFrom (t :: 0#8 :: 0#8 :: r) 1 = some (0#8 :: 0#8 :: r) := by simp [sliceFrom]
      have h0 : (t :: 0#8 :: 0#8 :: r)[0]? = some t := rfl
      rw [step, if_neg (by simp), h0, h1]
      simp only [Option.bind_some, hb, hl]
      rcases ht with rfl | rfl | rfl <;> rfl
    rw [run, hs]
    exact ⟨_, C275_unknown_violated known 0#8 _ (by decide) (by decide) k⟩

example := C275_zero_length_violated (fun _ => true) 6 (by decide) [1, 2, 3] 5

/-- C275: every error frame makes the receiver panic. -/
theorem C275_error_violated (known : U64 → Bool) (f : Bytes) (k : Nat) :
    run known (k + 1) (errorType :: f) = .panicked := rfl

/-- C275, what holds of termination: for every packet the call either ends within as many evaluations
of the loop as the packet has bytes, plus one, or it hangs at a suffix of the packet that begins with
a type without a case.
Missing: that it ends for every packet (refuted: `C275_unknown_violated`,
`C275_zero_length_violated`, `C275_error_violated` and others). -/
theorem C275_terminates_partial (known : U64 → Bool) (fr : Bytes) :
    (∃ e, run known (fr.length + 1) fr = .returned e) ∨ run known (fr.length + 1) fr = .panicked ∨
    (∃ t f, t ∉ handled ∧ t ≠ errorType ∧ (t :: f) <:+ fr ∧
      ∀ k, fr.length ≤ k → run known k fr = .running (t :: f)) := by
  suffices h : ∀ n fr, fr.length ≤ n →
      (∃ e, ∀ k, n < k → run known k fr = .returned e) ∨
      (∀ k, n < k → run known k fr = .panicked) ∨
      (∃ t f, t ∉ handled ∧ t ≠ errorType ∧ (t :: f) <:+ fr ∧
        ∀ k, n ≤ k → run known k fr = .running (t :: f)) by
    rcases h fr.length fr (Nat.le_refl _) with ⟨e, h⟩ | h | h
    · exact .inl ⟨e, h _ (by omega)⟩
    · exact .inr (.inl (h _ (by omega)))
    · exact .inr (.inr h)
  have nil : ∀ k, 0 < k → run known k [] = .returned false := by
    intro k hk
    match k, hk with
    | k + 1, _ => rfl
  intro n
  induction n with
  | zero =>
    intro fr hfr
    have : fr = [] := List.length_eq_zero_iff.1 (by omega)
    subst this
    exact .inl ⟨false, nil⟩
  | succ n ih =>
    intro fr hfr
    match fr, hfr with
    | [], _ => exact .inl ⟨false, fun k hk => nil k (by omega)⟩
    | t :: f, hfr =>
      simp only [List.length_cons] at hfr
      by_cases he : t = errorType
      · subst he
        refine .inr (.inl ?_)
        intro k hk
        match k, hk with
        | k + 1, _ => exact C275_error_violated known f k
      · by_cases ht : t ∈ handled
        · cases hs : step known (t :: f) with
          | none =>
            refine .inr (.inl ?_)
            intro k hk
            match k, hk with
            | k + 1, _ => rw [run, hs]
          | some s =>
            cases s with
            | returned e =>
              refine .inl ⟨e, ?_⟩
              intro k hk
              match k, hk with
              | k + 1, _ => rw [run, hs]
            | next r =>
              have hr := C39_progress known t f r ht hs
              have hl := hr.length_le
              rcases ih r (by omega) with ⟨e, h⟩ | h | ⟨t', f', h1, h2, h3, h4⟩
              · refine .inl ⟨e, ?_⟩
                intro k hk
                match k, hk with
                | k + 1, hk => rw [run, hs]; exact h k (by omega)
              · refine .inr (.inl ?_)
                intro k hk
                match k, hk with
                | k + 1, hk => rw [run, hs]; exact h k (by omega)
              · refine .inr (.inr ⟨t', f', h1, h2, h3.trans (hr.trans (List.suffix_cons t f)), ?_⟩)
                intro k hk
                match k, hk with
                | k + 1, hk => rw [run, hs]; exact h4 k (by omega)
        · exact .inr (.inr ⟨t, f, ht, he, List.suffix_refl _,
            fun k _ => C275_unknown_violated known t f ht he k⟩)

/-! ## Frames in order -/

/-- Specification: the frames that are laid out as their documentation says, after the type byte. -/
inductive Frame
  /-- length (big endian, counting itself) and padding -/
  | padding (body : Bytes)
  /-- length (little endian, counting itself) and the rest -/
  | call (body : Bytes)
  /-- 25 bytes -/
  | openStream (body : Bytes)
  /-- length (big endian, counting itself) and the rest -/
  | data (body : Bytes)
  /-- eight bytes -/
  | signature (body : Bytes)

/-- The frame fits its length field and its fixed size. -/
def Frame.Ok : Frame → Prop
  | .padding b | .call b | .data b => b.length + 2 < 65536
  | .openStream b => b.length = 25
  | .signature b => b.length = 8

/-- The bytes of a frame. -/
def Frame.bytes : Frame → Bytes
  | .padding b => 5#8 :: (beDigits 2 (b.length + 2) ++ b)
  | .call b => 6#8 :: (leDigits 2 (b.length + 2) ++ b)
  | .openStream b => 7#8 :: b
  | .data b => 9#8 :: (beDigits 2 (b.length + 2) ++ b)
  | .signature b => 11#8 :: b

theorem nextBe_frame (b r : Bytes) (h : b.length + 2 < 65536) :
    nextBe (beDigits 2 (b.length + 2) ++ b ++ r) = some r := by
  have hl : (beDigits 2 (b.length + 2)).length = 2 := beDigits_length _ _
  have h1 : length16be (beDigits 2 (b.length + 2) ++ b ++ r) = some (BitVec.ofNat 16 (b.length + 2)) := by
    have := get16_eq (beDigits 2 (b.length + 2) ++ b ++ r) 0
    rw [get16, if_pos (by simp [hl])] at this
    rw [length16be, this, region, List.drop_zero, List.append_assoc, List.take_left' hl, beVal_beDigits]
    congr 1
    apply BitVec.eq_of_toNat_eq
    simp
  have e : (BitVec.ofNat 16 (b.length + 2)).toNat = b.length + 2 := by simp; omega
  rw [nextBe, h1, Option.bind_some, e, sliceFrom, if_pos (by simp [hl]; omega),
    List.drop_left' (by simp [hl]; omega)]

theorem nextLe_frame (b r : Bytes) (h : b.length + 2 < 65536) :
    nextLe (leDigits 2 (b.length + 2) ++ b ++ r) = some r := by
  have hl : (leDigits 2 (b.length + 2)).length = 2 := leDigits_length _ _
  have h1 : length16le (leDigits 2 (b.length + 2) ++ b ++ r) = some (BitVec.ofNat 16 (b.length + 2)) := by
    rw [length16le, Syllab.getUInt16_eq _ _ (by simp [hl]) (by simp), region]
    simp only [BitVec.toNat_ofNat, Nat.zero_mod, List.drop_zero]
    rw [List.append_assoc, List.take_left' hl, leVal_leDigits]
    congr 1
    apply BitVec.eq_of_toNat_eq
    simp
  have e : (BitVec.ofNat 16 (b.length + 2)).toNat = b.length + 2 := by simp; omega
  rw [nextLe, h1, Option.bind_some, e, sliceFrom, if_pos (by simp [hl]; omega),
    List.drop_left' (by simp [hl]; omega)]

/-- The loop consumes a well laid out frame and nothing else. -/
theorem step_frame (known : U64 → Bool) (hk : ∀ id, known id = true) (x : Frame) (hx : x.Ok) (r : Bytes) :
    step known (x.bytes ++ r) = some (.next r) := by
  have h1 : ∀ t f, sliceFrom (t :: f) 1 = some (f : Bytes) := by intro t f; simp [sliceFrom]
  have h0 : ∀ (t : Byte) f, (t :: f)[0]? = some t := fun _ _ => rfl
  cases x with
  | padding b =>
    rw [Frame.bytes, List.cons_append, step, if_neg (by simp), h0, h1]
    simp only [Option.bind_some]
    rw [nextBe_frame b r hx]; rfl
  | data b =>
    rw [Frame.bytes, List.cons_append, step, if_neg (by simp), h0, h1]
    simp only [Option.bind_some]
    rw [nextBe_frame b r hx]; rfl
  | call b =>
    rw [Frame.bytes, List.cons_append, step, if_neg (by simp), h0, h1]
    simp only [Option.bind_some]
    rw [nextLe_frame b r hx]; rfl
  | openStream b =>
    simp only [Frame.Ok] at hx
    rw [Frame.bytes, List.cons_append, step, if_neg (by simp), h0, h1]
    simp only [Option.bind_some]
    have hid : ∃ id, openServiceID (b ++ r) = some id := by
      rw [openServiceID, sliceFrom, if_pos (by simp; omega), Option.bind_some, C01_le64_load]
      exact ⟨_, if_pos (by simp; omega)⟩
    obtain ⟨id, hid⟩ := hid
    have : nextOpen (b ++ r) = some r := by
      rw [nextOpen, sliceFrom, if_pos (by simp; omega), List.drop_left' hx]
    rw [hid, Option.bind_some, hk, this]
    rfl
  | signature b =>
    simp only [Frame.Ok] at hx
    rw [Frame.bytes, List.cons_append, step, if_neg (by simp), h0, h1]
    simp only [Option.bind_some]
    have : nextSignature (b ++ r) = some r := by
      rw [nextSignature, sliceFrom, if_pos (by simp; omega), List.drop_left' hx]
    rw [this]
    rfl

/-- C275: a packet of well laid out frames, all services known: after `i` evaluations exactly the
frames from the `i`-th on remain, and after the last frame the call returns without an error.
Missing: Chapar, GP and error frames, which are refuted below and above. -/
theorem C275_in_order_partial (known : U64 → Bool) (hk : ∀ id, known id = true) (fs : List Frame)
    (hf : ∀ x ∈ fs, x.Ok) :
    (∀ i ≤ fs.length, run known i (fs.flatMap Frame.bytes)
      = .running ((fs.drop i).flatMap Frame.bytes)) ∧
    run known (fs.length + 1) (fs.flatMap Frame.bytes) = .returned false := by
  induction fs with
  | nil =>
    constructor
    · intro i hi
      have : i = 0 := by simpa using hi
      subst this; rfl
    · rfl
  | cons x fs ih =>
    obtain ⟨ih1, ih2⟩ := ih (fun y hy => hf y (List.mem_cons_of_mem _ hy))
    have hs := step_frame known hk x (hf x List.mem_cons_self) (fs.flatMap Frame.bytes)
    constructor
    · intro i hi
      cases i with
      | zero => rfl
      | succ i =>
        rw [List.flatMap_cons, run, hs]
        exact ih1 i (by simpa using hi)
    · rw [List.flatMap_cons, List.length_cons, run, hs]
      exact ih2

example : run (fun _ => true) 3 ([Frame.padding [0, 0], .signature [1, 2, 3, 4, 5, 6, 7, 8]].flatMap
    Frame.bytes) = .returned false := by decide

/-- C39: an unknown service ends the call with an error, whatever follows. -/
theorem C39_unknown_service (known : U64 → Bool) (b r : Bytes) (hb : b.length = 25)
    (hk : ∀ id, known id = false) (k : Nat) :
    run known (k + 1) ((Frame.openStream b).bytes ++ r) = .returned true := by
  have hid : ∃ id, openServiceID (b ++ r) = some id := by
    rw [openServiceID, sliceFrom, if_pos (by simp; omega), Option.bind_some, C01_le64_load]
    exact ⟨_, if_pos (by simp; omega)⟩
  obtain ⟨id, hid⟩ := hid
  have : step known ((Frame.openStream b).bytes ++ r) = some (.returned true) := by
    have h1 : ∀ t f, sliceFrom (t :: f) 1 = some (f : Bytes) := by intro t f; simp [sliceFrom]
    have h0 : ∀ (t : Byte) f, (t :: f)[0]? = some t := fun _ _ => rfl
    rw [Frame.bytes, List.cons_append, step, if_neg (by simp), h0, h1]
    simp only [Option.bind_some]
    rw [hid, Option.bind_some, hk]
    rfl
  rw [run, this]

example := C39_unknown_service (fun _ => false) (List.replicate 25 7#8) [1, 2, 3] (by decide) (fun _ => rfl) 5

/-! ## Chapar and GP frames are read one byte too late -/

/-- C275: a GP frame carries its type in its first byte and has 33 bytes, but the loop hands it on
without the type byte and skips 33 more: the first byte of whatever follows is lost, and a GP frame
that nothing follows makes the receiver panic. -/
theorem C275_gp_violated (known : U64 → Bool) (g r : Bytes) (hg : Gp.checkFrame g = some .ok) :
    step known (g ++ r) = if r = [] then none else some (.next (r.drop 1)) := by
  rw [Gp.checkFrame] at hg
  split at hg
  · simp at hg
  · next hl =>
    simp only [Gp.frameLen, ne_eq, Decidable.not_not] at hl
    obtain ⟨t, ht, hg⟩ := Option.map_eq_some_iff.1 hg
    match g, hl with
    | t' :: g, hl =>
      simp only [Gp.frameType, List.getElem?_cons_zero, Option.some.injEq] at ht
      subst ht
      split at hg
      · simp at hg
      · next h4 =>
        simp only [Gp.frameTypeGP, ne_eq, Decidable.not_not] at h4
        subst h4
        have h1 : sliceFrom (4#8 :: g ++ r) 1 = some (g ++ r) := by simp [sliceFrom]
        have h0 : (4#8 :: g ++ r)[0]? = some (4#8 : Byte) := rfl
        have hl : g.length = 32 := by simpa using hl
        rw [step, if_neg (by simp), h0, h1]
        simp only [Option.bind_some]
        rw [if_neg (by decide), if_pos trivial, Gp.nextFrame, sliceFrom]
        by_cases hr : r = []
        · subst hr
          rw [if_pos rfl, if_neg (by simp [Gp.frameLen, hl])]
          rfl
        · have : 1 ≤ r.length := List.length_pos_iff.2 hr
          rw [if_neg hr, if_pos (by simp [Gp.frameLen, hl]; omega),
            List.drop_append, List.drop_of_length_le (by simp [Gp.frameLen, hl])]
          simp [Gp.frameLen, hl]

example : Gp.checkFrame (4#8 :: List.replicate 32 0#8) = some .ok := by decide

/-- C275: of a new Chapar frame the loop takes the hop number for the hop count, so the bytes of its
path are dispatched as frames. -/
theorem C275_chapar_violated (known : U64 → Bool) (h : Byte) (route r : Bytes) :
    step known ([3#8, h, 0#8] ++ route ++ r) = some (.next (route ++ r)) := by
  have h1 : sliceFrom ([3#8, h, 0#8] ++ route ++ r) 1 = some ([h, 0#8] ++ (route ++ r)) := by
    simp [sliceFrom]
  have h0 : ([3#8, h, 0#8] ++ route ++ r)[0]? = some (3#8 : Byte) := rfl
  rw [step, if_neg (by simp), h0, h1]
  simp only [Option.bind_some]
  have : Chapar.nextFrame ([h, 0#8] ++ (route ++ r)) = some (route ++ r) := by
    have hh : Chapar.hopCount ([h, 0#8] ++ (route ++ r)) = some 255#8 := rfl
    rw [Chapar.nextFrame, hh]
    simp [sliceFrom, Chapar.frameFixedLength]
  rw [this]
  rfl

end Memar.Net.Frames
