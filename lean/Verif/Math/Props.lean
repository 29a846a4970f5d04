import Verif.Math.Lemmas

/-!
# C06–C09, C51: integers as text, per-N calculations

The specification of decimal notation (`decVal`, `decDigits`, `AllDigits`, `Canonical`) is in
Verif/Decimal.lean.
-/

namespace Memar.Math
open Memar Memar.Decimal

/-! ## C06 -/

/-- What a correct parser of `w`-bit unsigned decimals with at most `k` characters does, for a given
text: it succeeds exactly on the in-range digit strings and then stores the value; on failure it keeps
the receiver and reports the cause. -/
def ParsesExactly {w} (k : Nat) (parse : BitVec w → Bytes → BitVec w × Option Err) : Prop :=
  ∀ (u : BitVec w) (s : Bytes),
    ((parse u s).2 = none ↔ s ≠ [] ∧ AllDigits s ∧ s.length ≤ k ∧ decVal s < 2 ^ w) ∧
    ((parse u s).2 = none → (parse u s).1.toNat = decVal s) ∧
    (∀ e, (parse u s).2 = some e → (parse u s).1 = u ∧
      (e = .emptyValue ↔ s = []) ∧
      (e = .badValue → ¬ AllDigits s) ∧
      (e = .outOfRange → k < s.length ∨ 2 ^ w ≤ decVal s))

theorem parses {w w'} (k : Nat) (max : BitVec w') (hw' : 8 ≤ w') (hw : w ≤ w')
    (hmax : max.toNat = 2 ^ w - 1) (hm : max.toNat * 10 + 9 < 2 ^ w')
    (parse : BitVec w → Bytes → BitVec w × Option Err)
    (hp : ∀ u s, parse u s = if s = [] then (u, some .emptyValue)
      else if s.length > k then (u, some .outOfRange)
      else match parseLoop max 0 s with
        | .error e => (u, some e)
        | .ok n => (n.setWidth w, none)) : ParsesExactly k parse := by
  intro u s
  have hpos : 0 < 2 ^ w := Nat.pow_pos (by omega)
  have h0 : (0 : BitVec w') ≤ max := by rw [BitVec.le_def]; simp
  have hz : (0 : BitVec w').toNat = 0 := by simp
  have hdv : decFrom (0 : BitVec w').toNat s = decVal s := by rw [hz]; rfl
  rw [hp]
  by_cases hs : s = []
  · rw [if_pos hs]
    refine ⟨by simp [hs], by simp, ?_⟩
    intro e he
    simp at he
    subst he
    simp [hs]
  · rw [if_neg hs]
    by_cases hl : s.length > k
    · rw [if_pos hl]
      refine ⟨by simp; omega, by simp, ?_⟩
      intro e he
      simp at he
      subst he
      simp [hs, hl]
    · rw [if_neg hl]
      cases hr : parseLoop max 0 s with
      | ok v =>
        have := (parseLoop_ok max hw' hm s 0 h0 v).mp hr
        rw [hdv] at this
        refine ⟨?_, ?_, by simp⟩
        · simp only [true_iff]
          exact ⟨hs, this.1, by omega, by omega⟩
        · intro _
          simp only [BitVec.toNat_setWidth]
          rw [this.2.2]
          apply Nat.mod_eq_of_lt
          omega
      | error e =>
        have := parseLoop_err max hw' hm s 0 h0 e hr
        rw [hdv] at this
        refine ⟨?_, by simp, ?_⟩
        · simp only [reduceCtorEq, false_iff]
          rintro ⟨_, h2, _, h4⟩
          rcases this with h | h
          · exact h.2 h2
          · omega
        · intro e' he
          simp at he
          subst he
          rcases this with h | h
          · rw [h.1]; simp [hs, h.2]
          · rw [h.1]; simp [hs]; omega

/-- **C06** for 8-bit integers. -/
theorem C06_u8 : ParsesExactly 3 fromString8 :=
  parses 3 (255 : U16) (by omega) (by omega) rfl (by decide) _ fun _ s => by
    unfold fromString8; congr 2; cases parseLoop _ 0 s <;> rfl
/-- **C06** for 16-bit integers. -/
theorem C06_u16 : ParsesExactly 5 fromString16 :=
  parses 5 (65535 : U32) (by omega) (by omega) rfl (by decide) _ fun _ s => by
    unfold fromString16; congr 2; cases parseLoop _ 0 s <;> rfl
/-- **C06** for 32-bit integers. -/
theorem C06_u32 : ParsesExactly 10 fromString32 :=
  parses 10 (4294967295 : U64) (by omega) (by omega) rfl (by decide) _ fun _ s => by
    unfold fromString32; congr 2; cases parseLoop _ 0 s <;> rfl

example : fromString8 7 (bs "255") = (255, none) ∧ fromString8 7 (bs "256") = (7, some .outOfRange) ∧
    fromString8 7 (bs "2x6") = (7, some .badValue) ∧ fromString16 7 (bs "65535") = (65535, none) ∧
    fromString32 7 (bs "4294967296") = (7, some .outOfRange) := by decide

/-! ## C07 -/

/-- **C07**, full statement: a 64-bit parse that reports no error stored the number denoted. -/
def Parse64Exact : Prop :=
  ∀ (u : U64) (s : Bytes), (fromString64 u s).2 = none → (fromString64 u s).1.toNat = decVal s

/-- **C07** is violated: 2^64 is accepted and stored as 0. -/
theorem C07_u64_violated : ¬ Parse64Exact := by
  intro h
  have := h 5 (bs "18446744073709551616") (by decide)
  revert this
  decide

/-- The product check is incomplete too: 92000000000000000000 is accepted with a wrapped value. -/
theorem C07_u64_product_violated :
    (fromString64 5 (bs "92000000000000000000")).2 = none ∧ 2 ^ 64 ≤ decVal (bs "92000000000000000000") := by
  decide

/-- **C07**, what holds: every in-range digit string of at most 20 characters is accepted with its exact
value; every accepted text is a non-empty digit string of at most 20 characters and the stored value is
its value modulo 2^64; the answer is exact for texts up to 19 characters; on error the receiver is kept.
Missing: that numbers above 2^64 - 1 are refused (refuted: `C07_u64_violated`,
`C07_u64_product_violated`, `C07_u64_just_above_violated` and others). -/
theorem C07_u64_partial (u : U64) (s : Bytes) :
    ((s ≠ [] ∧ AllDigits s ∧ s.length ≤ 20 ∧ decVal s < 2 ^ 64) →
      fromString64 u s = (BitVec.ofNat 64 (decVal s), none)) ∧
    ((fromString64 u s).2 = none → s ≠ [] ∧ AllDigits s ∧ s.length ≤ 20 ∧
      (fromString64 u s).1.toNat = decVal s % 2 ^ 64) ∧
    (s.length ≤ 19 → (fromString64 u s).2 = none → (fromString64 u s).1.toNat = decVal s) ∧
    (∀ e, (fromString64 u s).2 = some e → (fromString64 u s).1 = u ∧
      (e = .emptyValue ↔ s = []) ∧ (e = .badValue → ¬ AllDigits s) ∧
      (e = .outOfRange → 20 < s.length ∨ 2 ^ 64 ≤ decVal s)) := by
  have h2 : (fromString64 u s).2 = none → s ≠ [] ∧ AllDigits s ∧ s.length ≤ 20 ∧
      (fromString64 u s).1.toNat = decVal s % 2 ^ 64 := by
    unfold fromString64
    by_cases hs : s = []
    · simp [hs]
    · rw [if_neg hs]
      by_cases hl : s.length > 20
      · rw [if_pos hl]; simp
      · rw [if_neg hl]
        cases hr : parseLoop64 0 s with
        | error e => simp
        | ok v =>
          have := parseLoop64_ok s 0 v hr
          intro _
          exact ⟨hs, this.1, by omega, this.2⟩
  refine ⟨?_, h2, ?_, ?_⟩
  · rintro ⟨hs, hd, hl, hv⟩
    obtain ⟨v, hr⟩ := parseLoop64_complete s 0 hd hv
    have hk := (parseLoop64_ok s 0 v hr).2
    change v.toNat = decVal s % _ at hk
    unfold fromString64
    rw [if_neg hs, if_neg (by omega), hr]
    simp only [Prod.mk.injEq, and_true]
    apply BitVec.eq_of_toNat_eq
    rw [hk, BitVec.toNat_ofNat]
  · intro hl hn
    obtain ⟨_, hd, _, hv⟩ := h2 hn
    rw [hv]
    apply Nat.mod_eq_of_lt
    have h1 := decVal_lt s hd
    have h3 : 10 ^ s.length ≤ 10 ^ 19 := Nat.pow_le_pow_right (by omega) hl
    omega
  · intro e he
    unfold fromString64 at he ⊢
    by_cases hs : s = []
    · simp [hs] at he ⊢; exact ⟨he.symm, by simp [← he], by simp [← he]⟩
    · rw [if_neg hs] at he ⊢
      by_cases hl : s.length > 20
      · rw [if_pos hl] at he ⊢
        simp at he; subst he; simp [hs, hl]
      · rw [if_neg hl] at he ⊢
        cases hr : parseLoop64 0 s with
        | ok v => rw [hr] at he; simp at he
        | error e' =>
          rw [hr] at he
          simp at he
          subst he
          have := parseLoop64_err s 0 e' hr
          rcases this with h | h
          · rw [h.1]; simp [hs, h.2]
          · rw [h.1]; simp [hs]
            right
            exact h.2

example : fromString64 3 (bs "18446744073709551615") = (18446744073709551615, none) := by decide

/-! ## C08 -/

/-- **C08**: printing then parsing gives the value back, at every width and for every old receiver. -/
theorem C08_print_parse :
    (∀ u v : U8, fromString8 u (toString v) = (v, none)) ∧
    (∀ u v : U16, fromString16 u (toString v) = (v, none)) ∧
    (∀ u v : U32, fromString32 u (toString v) = (v, none)) ∧
    (∀ u v : U64, fromString64 u (toString v) = (v, none)) := by
  have hsmall : ∀ {w} (k : Nat) (hk : 0 < k) (hlt : 2 ^ w ≤ 10 ^ k)
      (parse : BitVec w → Bytes → BitVec w × Option Err), ParsesExactly k parse →
      ∀ u v : BitVec w, parse u (toString v) = (v, none) := by
    intro w k hk hlt parse hp u v
    have hv := v.isLt
    obtain ⟨h1, h2, _⟩ := hp u (toString v)
    have hn : (parse u (toString v)).2 = none := by
      rw [h1]
      refine ⟨decDigits_ne_nil _, decDigits_allDigits _, decDigits_length_le _ _ hk (by omega), ?_⟩
      rw [toString, decVal_decDigits]; exact hv
    have h3 := h2 hn
    rw [toString, decVal_decDigits] at h3
    exact Prod.ext (BitVec.eq_of_toNat_eq h3) hn
  refine ⟨hsmall 3 (by decide) (by decide) _ C06_u8, hsmall 5 (by decide) (by decide) _ C06_u16,
    hsmall 10 (by decide) (by decide) _ C06_u32, ?_⟩
  intro u v
  have hv := v.isLt
  have h := (C07_u64_partial u (toString v)).1 ⟨decDigits_ne_nil _, decDigits_allDigits _,
    decDigits_length_le _ 20 (by omega) (by omega), by rw [toString, decVal_decDigits]; exact hv⟩
  rw [h, toString, decVal_decDigits, BitVec.ofNat_toNat, BitVec.setWidth_eq]

/-- **C08**: different values print differently. -/
theorem C08_print_injective {w} (u v : BitVec w) (h : toString u = toString v) : u = v :=
  BitVec.eq_of_toNat_eq (decDigits_inj _ _ h)

example := C08_print_injective (250#8 + 7#8) 1#8 (by decide +kernel)

/-- **C08**: parsing text without redundant leading zeros and printing the result gives the text. -/
theorem C08_parse_print (s : Bytes) (hc : Canonical s) :
    (∀ u : U8, (fromString8 u s).2 = none → toString (fromString8 u s).1 = s) ∧
    (∀ u : U16, (fromString16 u s).2 = none → toString (fromString16 u s).1 = s) ∧
    (∀ u : U32, (fromString32 u s).2 = none → toString (fromString32 u s).1 = s) ∧
    (∀ u : U64, s.length ≤ 19 → (fromString64 u s).2 = none → toString (fromString64 u s).1 = s) := by
  refine ⟨?_, ?_, ?_, ?_⟩
  · intro u h
    rw [toString, (C06_u8 u s).2.1 h, decDigits_decVal s hc]
  · intro u h
    rw [toString, (C06_u16 u s).2.1 h, decDigits_decVal s hc]
  · intro u h
    rw [toString, (C06_u32 u s).2.1 h, decDigits_decVal s hc]
  · intro u hl h
    rw [toString, (C07_u64_partial u s).2.2.1 hl h, decDigits_decVal s hc]

example : Canonical (bs "4096") ∧ (fromString16 0 (bs "4096")).2 = none := by
  refine ⟨⟨by decide, by decide, by decide⟩, by decide⟩

/-! ## C09 -/

theorem perCalc_exact (b num d : U64) (h : num.toNat * b.toNat < 2 ^ 64) :
    (perCalc b num d).toNat = num.toNat * b.toNat / d.toNat := by
  rw [perCalc, BitVec.toNat_udiv, BitVec.toNat_mul, Nat.mod_eq_of_lt h]

/-- A per-`N` calculator is exact when it returns the floor of `num * b / N` whenever the product fits
64 bits. -/
def PerExact {w} (f : BitVec w → U64 → U64) (N : Nat) : Prop :=
  ∀ (b : BitVec w) (num : U64), num.toNat * b.toNat < 2 ^ 64 →
    (f b num).toNat = num.toNat * b.toNat / N

/-- **C09**: per ten up to per billion are exact. -/
theorem C09_per_exact : PerExact perTen 10 ∧ PerExact perCent 100 ∧ PerExact perMille 1000 ∧
    PerExact perMyriad 10000 ∧ PerExact perCentMille 100000 ∧ PerExact perMillion 1000000 ∧
    PerExact perBillion 1000000000 := by
  have h8 : ∀ b : U8, (b.setWidth 64).toNat = b.toNat := fun b => by
    rw [BitVec.toNat_setWidth]; exact Nat.mod_eq_of_lt (by omega)
  have h16 : ∀ b : U16, (b.setWidth 64).toNat = b.toNat := fun b => by
    rw [BitVec.toNat_setWidth]; exact Nat.mod_eq_of_lt (by omega)
  have h32 : ∀ b : U32, (b.setWidth 64).toNat = b.toNat := fun b => by
    rw [BitVec.toNat_setWidth]; exact Nat.mod_eq_of_lt (by omega)
  refine ⟨?_, ?_, ?_, ?_, ?_, ?_, ?_⟩ <;> intro b num h
  · rw [perTen, perCalc_exact _ _ _ (by rw [h8]; exact h), h8]; rfl
  · rw [perCent, perCalc_exact _ _ _ (by rw [h8]; exact h), h8]; rfl
  · rw [perMille, perCalc_exact _ _ _ (by rw [h16]; exact h), h16]; rfl
  · rw [perMyriad, perCalc_exact _ _ _ (by rw [h16]; exact h), h16]; rfl
  · rw [perCentMille, perCalc_exact _ _ _ (by rw [h32]; exact h), h32]; rfl
  · rw [perMillion, perCalc_exact _ _ _ (by rw [h32]; exact h), h32]; rfl
  · rw [perBillion, perCalc_exact _ _ _ (by rw [h32]; exact h), h32]; rfl

example : perCent 15 2000 = 300 := by decide

/-- **C09**: an exact calculator is monotone in both arguments while products fit. -/
theorem C09_per_monotone {w} (f : BitVec w → U64 → U64) (N : Nat) (hc : PerExact f N)
    (b b' : BitVec w) (n n' : U64) (hb : b ≤ b') (hn : n ≤ n') (h : n'.toNat * b'.toNat < 2 ^ 64) :
    f b n ≤ f b' n' := by
  have hm : n.toNat * b.toNat ≤ n'.toNat * b'.toNat := Nat.mul_le_mul hn hb
  rw [BitVec.le_def, hc b n (by omega), hc b' n' h]
  exact Nat.div_le_div_right hm

example := C09_per_monotone perCent 100 C09_per_exact.2.1 15 20 2000 3000 (by decide) (by decide) (by decide)

/-- **C179** fails for every calculator whose product overflows: two hundred percent of 2^63 is 0. -/
theorem C179_overflow_violated : perCent 200 9223372036854775808 = 0 := by decide

/-- **C179** is violated by per trillion and per quadrillion: they are per-million calculators. -/
theorem C179_trillion_violated : ¬ PerExact perTrillion (10 ^ 12) ∧ ¬ PerExact perQuadrillion (10 ^ 15) ∧
    PerExact perTrillion (10 ^ 6) ∧ PerExact perQuadrillion (10 ^ 6) := by
  refine ⟨?_, ?_, ?_, ?_⟩
  · intro h; have := h 1000000 1 (by decide); revert this; decide
  · intro h; have := h 1000000 1 (by decide); revert this; decide
  · intro b num h; rw [perTrillion, perCalc_exact _ _ _ h]; rfl
  · intro b num h; rw [perQuadrillion, perCalc_exact _ _ _ h]; rfl

/-! ## C51 -/

/-- **C51** for booleans: printing and parsing gives the value back whatever the old value was, the
three spellings of each value are recognised, and unknown text leaves the value unchanged (no error
is reported for it). -/
theorem C51_bool (old b : Bool) : fromStringBool old (toStringBool b) = b ∧
    (∀ s ∈ [bs "true", bs "TRUE", bs "True"], fromStringBool old s = true) ∧
    (∀ s ∈ [bs "false", bs "FALSE", bs "False"], fromStringBool old s = false) ∧
    ∀ s, s ∉ [bs "true", bs "TRUE", bs "True", bs "false", bs "FALSE", bs "False"] →
      fromStringBool old s = old := by
  refine ⟨by cases b <;> cases old <;> decide, by cases old <;> decide, by cases old <;> decide, ?_⟩
  intro s hs
  simp only [List.mem_cons, List.not_mem_nil, or_false, not_or] at hs
  simp [fromStringBool, hs]

/-- **C51** for signed integers, full statement: printing and parsing gives the value back. -/
def SignedRoundTrip (w : Nat) : Prop :=
  ∀ old v : BitVec w, fromStringSigned old (toStringSigned v) = (v, none)

/-- **C198** is violated for signed integers of every positive width: parsing stores nothing. -/
theorem C198_signed_violated (w : Nat) (hw : 0 < w) : ¬ SignedRoundTrip w := by
  intro h
  have := h 0 1
  simp only [fromStringSigned, Prod.mk.injEq, and_true] at this
  have h2 := congrArg BitVec.toNat this
  have : 1 < 2 ^ w := Nat.one_lt_two_pow (by omega)
  simp at h2
  omega

example := C198_signed_violated 64 (by decide)

/-- **C51**: the text of a signed integer does identify it. -/
theorem C51_signed_print_injective {w} (u v : BitVec w) (h : toStringSigned u = toStringSigned v) : u = v := by
  have hm : ∀ n, (decDigits n).head? ≠ some 45 := by
    intro n he
    have := decDigits_allDigits n 45 (List.mem_of_mem_head? he)
    revert this; decide
  apply BitVec.eq_of_toInt_eq
  unfold toStringSigned at h
  split at h <;> split at h
  · have := decDigits_inj _ _ (List.append_cancel_left h); omega
  · exfalso
    have h2 := congrArg List.head? h
    exact hm _ h2.symm
  · exfalso
    have h2 := congrArg List.head? h
    exact hm _ h2
  · have := decDigits_inj _ _ h; omega

example := C51_signed_print_injective (-12 : U8) 244#8 (by decide +kernel)

/-- **C51**: the text of a signed integer is the ordinary decimal numeral: a minus sign exactly before a negative
number, then the shortest decimal digits of its absolute value. -/
theorem C51_signed_text {w} (v : BitVec w) :
    (v.toInt < 0 → ∃ ds, toStringSigned v = ch '-' :: ds ∧ Canonical ds ∧ (decVal ds : Int) = -v.toInt) ∧
    (0 ≤ v.toInt → Canonical (toStringSigned v) ∧ (decVal (toStringSigned v) : Int) = v.toInt) := by
  unfold toStringSigned
  constructor
  · intro h
    rw [if_pos h]
    refine ⟨decDigits v.toInt.natAbs, rfl, decDigits_canonical _, ?_⟩
    rw [decVal_decDigits]; omega
  · intro h
    rw [if_neg (by omega)]
    refine ⟨decDigits_canonical _, ?_⟩
    rw [decVal_decDigits]; omega

example : toStringSigned (-12 : U8) = bs "-12" := by decide +kernel

end Memar.Math
