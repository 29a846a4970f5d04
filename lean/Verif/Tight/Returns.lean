import Verif.Tight.Json

/-!
# C278: exactly which decoding calls return

json/decode.go:158-438, json/decode-minified.go:18-298, json/decode-minified-unsafe.go:18-31.
-/

namespace Memar.Json
open Memar Decimal

namespace Spec

/-- The text from its first decimal digit on, or the whole text when it has none. -/
def fromDigit (b : Bytes) : Bytes :=
  if ∃ c ∈ b, 48 ≤ c.toNat ∧ c.toNat ≤ 57 then b.dropWhile (fun c => ¬ (48 ≤ c.toNat ∧ c.toNat ≤ 57)) else b

/-- The text has no comma and no closing bracket or brace. -/
def NoEnd (b : Bytes) : Prop := ∀ c ∈ b, c ≠ ch ',' ∧ c ≠ ch ']' ∧ c ≠ ch '}'

end Spec

theorem dropWhile_nil_iff (f : Byte → Bool) (b : Bytes) : b.dropWhile f = [] ↔ ∀ c ∈ b, f c = true := by
  induction b with
  | nil => simp
  | cons c b ih =>
    rw [List.dropWhile_cons]
    split
    · rename_i h; rw [ih]; simp [h]
    · rename_i h; simp [h]

theorem findEnd_none_imp (b : Bytes) (h : findEnd b = none) : ∀ c ∈ b, ¬ EndTok c := by
  induction b with
  | nil => simp
  | cons c b ih =>
    unfold findEnd at h
    split at h
    · cases h
    · split at h
      · cases h
      · split at h
        · cases h
        · rename_i h1 h2 h3
          intro x hx
          rcases List.mem_cons.1 hx with rfl | hx
          · rintro (e | e | e) <;> simp_all
          · exact ih (by simpa using h) x hx

theorem digit_eq (c : Byte) : digit c = decide (48 ≤ c.toNat ∧ c.toNat ≤ 57) := by
  unfold digit; simp [BitVec.le_def]

theorem dropTo_fromDigit (b : Bytes) : dropTo digit b = Spec.fromDigit b := by
  have hf : (fun c : Byte => !digit c) = (fun c => decide (¬ (48 ≤ c.toNat ∧ c.toNat ≤ 57))) := by
    funext c; rw [digit_eq, decide_not]
  unfold dropTo Spec.fromDigit
  rw [hf]
  split
  · rename_i h
    rw [if_neg]
    rintro ⟨c, hc, hd⟩
    have := (dropWhile_nil_iff _ _).1 h c hc
    simp at this
    omega
  · rename_i h
    rw [if_pos]
    apply Classical.byContradiction
    intro hn
    apply h
    rw [dropWhile_nil_iff]
    intro c hc
    apply decide_eq_true
    exact fun hd => hn ⟨c, hc, hd⟩

theorem noEnd_iff (b : Bytes) : Spec.NoEnd b ↔ ∀ c ∈ b, ¬ EndTok c := by
  unfold Spec.NoEnd EndTok
  constructor
  · intro h c hc
    have := h c hc
    rintro (e | e | e) <;> simp_all
  · intro h c hc
    have := h c hc
    simp only [not_or] at this
    exact this

/-- **C278**, the part that holds, exactly: a list decoder runs for ever on precisely these calls: no closing bracket was met last, the item remembered
from before is a number, and from the first digit on the text has no end of an item. In all other cases it answers a list or an
error after at most two rounds more than the text has bytes; it never panics. Missing: the calls that run for ever (refuted: `C278_hang_violated`). -/
theorem C278_list_returns_iff_partial {w} (p : Bytes → Option (BitVec w)) (hp : p [] = none) (d : Decoder) :
    ((∀ rounds, Decoder.decodeSlice p rounds d = .running) ↔
      d.token ≠ ch ']' ∧ p d.lastItem ≠ none ∧ Spec.NoEnd (Spec.fromDigit d.buf)) ∧
    (¬ (d.token ≠ ch ']' ∧ p d.lastItem ≠ none ∧ Spec.NoEnd (Spec.fromDigit d.buf)) →
      ∀ rounds, d.buf.length + 2 ≤ rounds → ∃ d' r, Decoder.decodeSlice p rounds d = .done d' r) := by
  have back : ¬ (d.token ≠ ch ']' ∧ p d.lastItem ≠ none ∧ Spec.NoEnd (Spec.fromDigit d.buf)) →
      ∀ rounds, d.buf.length + 2 ≤ rounds → ∃ d' r, Decoder.decodeSlice p rounds d = .done d' r := by
    intro hn rounds hr
    match rounds, hr with
    | n + 1, hr =>
      unfold Decoder.decodeSlice
      rw [sliceLoop]
      split
      · exact ⟨_, _, rfl⟩
      · rename_i htok
        cases hd : d.decodeUInt p with
        | mk d1 r1 =>
          cases r1 with
          | error e => exact ⟨_, _, rfl⟩
          | ok v =>
            simp only
            unfold Decoder.decodeUInt Decoder.minUInt at hd
            simp only at hd
            have hbuf : d.trimToDigit.buf = Spec.fromDigit d.buf := dropTo_fromDigit d.buf
            have hlen : d.trimToDigit.buf.length ≤ d.buf.length := dropTo_length_le _ _
            cases hf : findEnd d.trimToDigit.buf with
            | none =>
              exfalso
              have e1 : d.trimToDigit.findEndToken = d.trimToDigit := by unfold Decoder.findEndToken; rw [hf]
              rw [e1] at hd
              apply hn
              refine ⟨htok, ?_, ?_⟩
              · intro hh
                have : d.trimToDigit.lastItem = d.lastItem := rfl
                rw [this, hh] at hd
                cases hd
              · rw [← hbuf, noEnd_iff]
                exact findEnd_none_imp _ hf
            | some x =>
              obtain ⟨i, t, r⟩ := x
              obtain ⟨e, ht, hni, r', hr'⟩ := findEnd_some _ _ _ _ hf
              have e1 : d.trimToDigit.findEndToken = { d.trimToDigit with buf := r, token := t, lastItem := i } := by
                unfold Decoder.findEndToken; rw [hf]
              rw [e1] at hd
              have hd1 : d1 = { d.trimToDigit with buf := r, token := t, lastItem := i } := by
                split at hd
                · exact (congrArg Prod.fst hd).symm
                · cases hd
              have hfe := findEndToken_at d1 [] t r' (by rw [hd1, hr']; rfl) (by simp) ht
              rw [hfe]
              have hl2 := congrArg List.length e
              simp only [List.length_append] at hl2
              have hlr : r.length = r'.length + 1 := by rw [hr']; simp
              have key : ∀ acc : List (BitVec w), ∃ d' r, sliceLoop p n { buf := t :: r', token := t, lastItem := [] } acc = .done d' r := by
                have gen : ∀ (m : Nat) (d : Decoder) (acc : List (BitVec w)), d.lastItem = [] → d.buf.length + 1 ≤ m →
                    ∃ d' r, sliceLoop p m d acc = .done d' r := by
                  intro m
                  induction m with
                  | zero => intro d acc _ h; omega
                  | succ m ih =>
                    intro d acc hl hm
                    rw [sliceLoop]
                    split
                    · exact ⟨_, _, rfl⟩
                    · cases hd : d.decodeUInt p with
                      | mk d2 r2 =>
                        cases r2 with
                        | error e => exact ⟨_, _, rfl⟩
                        | ok v =>
                          simp only
                          obtain ⟨hlt, t, r, hb, ht⟩ := decodeUInt_progress p hp d hl d2 v hd
                          rw [findEndToken_at d2 [] t r (by rw [hb]; rfl) (by simp) ht]
                          apply ih
                          · rfl
                          · simp only
                            rw [← hb]; omega
                intro acc
                exact gen n _ acc rfl (by simp; omega)
              exact key _
  refine ⟨⟨?_, ?_⟩, back⟩
  · intro h
    apply Classical.byContradiction
    intro hn
    obtain ⟨d', r, e⟩ := back hn _ (Nat.le_refl _)
    rw [h] at e
    cases e
  · rintro ⟨h1, h2, h3⟩ rounds
    obtain ⟨v, hv⟩ := Option.ne_none_iff_exists'.1 h2
    cases rounds with
    | zero => rfl
    | succ n =>
      rw [← dropTo_fromDigit, noEnd_iff] at h3
      have hf : findEnd d.trimToDigit.buf = none := findEnd_none _ h3
      have e1 : d.trimToDigit.findEndToken = d.trimToDigit := by unfold Decoder.findEndToken; rw [hf]
      have e2 : d.decodeUInt p = (d.trimToDigit, .ok v) := by
        unfold Decoder.decodeUInt Decoder.minUInt
        simp only
        rw [e1]
        have : d.trimToDigit.lastItem = d.lastItem := rfl
        rw [this, hv]
      unfold Decoder.decodeSlice
      rw [sliceLoop, if_neg h1, e2]
      simp only
      rw [e1]
      have gen : ∀ (n : Nat) (d : Decoder) (acc : List (BitVec w)), p d.lastItem = some v → (∀ c ∈ d.buf, ¬ EndTok c) → d.token ≠ ch ']' →
          sliceLoop p n d acc = .running := by
        intro n
        induction n with
        | zero => intros; rfl
        | succ n ih =>
          intro d acc hv hb ht
          have hb2 : ∀ c ∈ d.trimToDigit.buf, ¬ EndTok c := by
            intro c hc
            apply hb
            have hd : d.trimToDigit.buf = Spec.fromDigit d.buf := dropTo_fromDigit d.buf
            rw [hd] at hc
            unfold Spec.fromDigit at hc
            split at hc
            · exact (List.dropWhile_sublist _).mem hc
            · exact hc
          have hf : findEnd d.trimToDigit.buf = none := findEnd_none _ hb2
          have e1 : d.trimToDigit.findEndToken = d.trimToDigit := by unfold Decoder.findEndToken; rw [hf]
          have e2 : d.decodeUInt p = (d.trimToDigit, .ok v) := by
            unfold Decoder.decodeUInt Decoder.minUInt
            simp only
            rw [e1]
            have : d.trimToDigit.lastItem = d.lastItem := rfl
            rw [this, hv]
          rw [sliceLoop, if_neg ht, e2]
          simp only
          rw [e1]
          exact ih _ _ hv hb2 ht
      exact gen n _ _ hv h3 h1

example := (C278_list_returns_iff_partial ownParser8 (by decide) { buf := bs "], 12 ", token := ch ',', lastItem := bs "7" }).1.2
  ⟨by decide, by decide +kernel, by unfold Spec.NoEnd; decide +kernel⟩ 1000

/-- **C278**, the part that holds: the decoders of minified lists and of lists of 32 bytes stop on every text, with a list, an error or a panic, after
at most one round more than the text has bytes. Missing: an error instead of the panic. -/
theorem C278_others_stop_partial {w} (p : Bytes → Option (BitVec w)) (dec : Bytes → Option Bytes) (d : Decoder) (rounds : Nat)
    (hr : d.buf.length + 1 ≤ rounds) :
    Decoder.minSlice p rounds d ≠ .running ∧ Decoder.decode32 dec rounds d ≠ .running ∧ Decoder.min32 dec rounds d ≠ .running := by
  have a1 : ∀ (n : Nat) (d : Decoder) (acc : List (BitVec w)), d.buf.length < n → minSliceLoop p n d acc ≠ .running := by
    intro n
    induction n with
    | zero => intro d acc h; omega
    | succ n ih =>
      intro d acc h
      rw [minSliceLoop]
      split
      · simp
      · have hl : (d.minUInt p).1.buf.length ≤ d.buf.length := by
          have := findEndToken_length d
          unfold Decoder.minUInt
          simp only
          split <;> exact this
        split
        · simp
        · rename_i d1 v e
          rw [e] at hl
          simp only at hl
          unfold Decoder.offset sliceFrom
          by_cases h1 : 1 ≤ d1.buf.length
          · simp only [h1, if_true, Option.map_some]
            exact ih _ _ (by simp; omega)
          · simp [h1]
  have a2 : ∀ (n : Nat) (d : Decoder) (acc : List Bytes), d.buf.length < n → slice32Loop dec n d acc ≠ .running := by
    intro n
    induction n with
    | zero => intro d acc h; omega
    | succ n ih =>
      intro d acc h
      rw [slice32Loop]
      split
      · simp
      · have hl : d.trimToStringStart.buf.length ≤ d.buf.length := by
          unfold Decoder.trimToStringStart
          split <;> simp
        simp only
        split
        · simp
        · split
          · simp
          · apply ih
            refine Nat.lt_of_le_of_lt (findEndToken_length _) ?_
            simp; omega
  have a3 : ∀ (n : Nat) (d : Decoder) (acc : List Bytes), d.buf.length < n → minSlice32Loop dec n d acc ≠ .running := by
    intro n
    induction n with
    | zero => intro d acc h; omega
    | succ n ih =>
      intro d acc h
      rw [minSlice32Loop]
      split
      · simp
      · simp only
        split
        · simp
        · split
          · simp
          · rename_i h43
            split
            · simp
            · apply ih
              simp at h43 ⊢; omega
  refine ⟨?_, ?_, ?_⟩
  · unfold Decoder.minSlice Decoder.offset sliceFrom
    by_cases h1 : 1 ≤ d.buf.length
    · simp only [h1, if_true, Option.map_some]
      exact a1 _ _ _ (by simp; omega)
    · simp [h1]
  · unfold Decoder.decode32
    split
    · simp
    · exact a2 _ _ _ (by simp; omega)
  · unfold Decoder.min32 Decoder.offset sliceFrom
    by_cases h1 : 1 ≤ d.buf.length
    · simp only [h1, if_true, Option.map_some]
      exact a3 _ _ _ (by simp; omega)
    · simp [h1]

example : Decoder.minSlice ownParser8 5 { buf := bs "[1,2", lastItem := [] } = .done { buf := bs "2", token := ch ',', lastItem := bs "1" } (.ok [1#8]) ∨
    Decoder.minSlice ownParser8 5 { buf := bs "[1,2", lastItem := [] } = .panic := by decide +kernel

/-- **C278**, the part that holds: exactly when each of the calls without a loop panics: a minified string on an empty text and on no other; a minified
key when no quote follows its first two bytes, or nothing follows that quote; minified base64 when no quote follows its first byte; an array of numbers as a string.
On every other text a value or an error is answered. Missing: an error in these cases (refuted: `C278_bool_panic_violated`, `C278_string_panic_exact_violated`). -/
theorem C278_panics_iff_partial {w} (p : Bytes → Option (BitVec w)) (n : Nat) (dec : Bytes → Option Bytes) (d : Decoder) :
    (d.minString = none ↔ d.buf = []) ∧ (d.unsafeMinString = none ↔ d.buf = []) ∧
    (d.minKey = none ↔ ¬ ∃ a b k c r, d.buf = a :: b :: (k ++ ch '"' :: c :: r) ∧ ch '"' ∉ k) ∧
    (d.minBase64 dec = none ↔ ch '"' ∉ d.buf.drop 1) ∧
    (d.decodeArray p n = none ↔ ∃ a r, d.buf = a ++ ch 'n' :: r ∧ r.length < 3 ∧ ∀ c ∈ a, c ≠ ch '"' ∧ c ≠ ch ',') := by
  refine ⟨?_, ?_, ?_, ?_, ?_⟩
  · unfold Decoder.minString
    cases h : indexByte d.buf (ch '"') with
    | some l =>
      simp
      intro e; rw [e] at h; cases h
    | none => simp
  · unfold Decoder.unsafeMinString Decoder.offset sliceFrom
    by_cases h1 : 1 ≤ d.buf.length
    · have : d.buf ≠ [] := by intro e; simp [e] at h1
      simp [h1, this]
    · have : d.buf = [] := List.length_eq_zero_iff.1 (by omega)
      simp [this]
  · match hb : d.buf with
    | [] => simp [Decoder.minKey, Decoder.offset, sliceFrom, hb]
    | [x] => simp [Decoder.minKey, Decoder.offset, sliceFrom, hb]
    | x :: y :: s =>
      have e : d.offset 2 = some { d with buf := s } := by simp [Decoder.offset, sliceFrom, hb]
      cases hi : indexByte s (ch '"') with
      | none =>
        have hno := (indexByte_none_iff _ _).1 hi
        have : d.minKey = none := by simp [Decoder.minKey, e, hi]
        rw [this]
        simp only [true_iff]
        rintro ⟨a, b, k, c, r, h, _⟩
        simp at h
        exact hno (by rw [h.2.2]; simp)
      | some l =>
        obtain ⟨h1, h2, h3⟩ := indexByte_some _ _ _ hi
        have hk : d.minKey = none ↔ s.drop (l + 1) = [] := by
          unfold Decoder.minKey
          rw [e]
          simp only [hi, Option.bind_eq_bind, Option.bind_some, Decoder.offset, sliceFrom]
          by_cases h4 : l + 2 ≤ s.length
          · simp [h4]; omega
          · simp [h4]; omega
        rw [hk]
        constructor
        · rintro h ⟨a, b, k, c, r, h', hn⟩
          simp at h'
          have hi2 : indexByte s (ch '"') = some k.length := by
            rw [h'.2.2]; exact indexByte_append k _ _ hn
          rw [hi] at hi2
          cases hi2
          rw [h'.2.2] at h
          simp at h
        · intro h
          cases hd : s.drop (l + 1) with
          | nil => rfl
          | cons c r =>
            exfalso
            apply h
            refine ⟨x, y, s.take l, c, r, ?_, h2⟩
            rw [hd] at h1
            rw [← h1]
  · unfold Decoder.minBase64
    by_cases h1 : 1 ≤ d.buf.length
    · have e : d.offset 1 = some { d with buf := d.buf.drop 1 } := by simp [Decoder.offset, sliceFrom, h1]
      cases hi : indexByte (d.buf.drop 1) (ch '"') with
      | none =>
        have hno := (indexByte_none_iff _ _).1 hi
        simp only [e, hi, Option.bind_eq_bind, Option.bind_some, Option.bind_none, true_iff]
        exact hno
      | some l =>
        obtain ⟨h2, h3, h4⟩ := indexByte_some _ _ _ hi
        simp only [e, hi, Option.bind_eq_bind, Option.bind_some]
        have hm : ch '"' ∈ d.buf.drop 1 := by rw [h2]; simp
        simp only [hm, not_true, iff_false]
        split
        · simp
        · simp only [Decoder.offset, sliceFrom]
          rw [if_pos (by simp at h4 ⊢; omega)]
          simp
    · have : d.buf = [] := List.length_eq_zero_iff.1 (by omega)
      simp [Decoder.offset, sliceFrom, this]
  · have hnn := checkNull_none_iff false d.buf
    unfold NoStop at hnn
    rw [← hnn]
    unfold Decoder.decodeArray Decoder.checkNullValue
    cases h : checkNull false d.buf with
    | none => simp
    | some z => cases z <;> simp

example : Decoder.minKey (.init (bs ",\"key\"")) = none := by decide +kernel
example : (Decoder.minKey (.init (bs ",\"key\":")) ≠ none) := by decide +kernel

end Memar.Json
