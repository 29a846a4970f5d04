import Verif.Math.Objects
import Verif.Math.Props

/-!
# C161: comparing numbers and reading them from text
-/

namespace Memar.Math
open Memar Decimal

/-- **C161**: integers and truth values are equal for `Equal` exactly when they are the same number. -/
theorem C161_equal_integers {w} (a b : BitVec w) (p q : Bool) :
    (equalInt a b = true ↔ a.toNat = b.toNat) ∧ (equalInt a b = true ↔ a.toInt = b.toInt) ∧
    (equalBool p q = true ↔ (p = true ↔ q = true)) := by
  refine ⟨?_, ?_, ?_⟩
  · rw [equalInt, beq_iff_eq, BitVec.toNat_inj]
  · rw [equalInt, beq_iff_eq, BitVec.toInt_inj]
  · cases p <;> cases q <;> decide

/-- **C243** violated for integers of chosen size: the same number held in two sizes is not equal to itself. -/
theorem C243_equal_sizes_violated (n s t : U64) (h : s ≠ t) : Signed.equal ⟨n, s⟩ ⟨n, t⟩ = false := by
  simp [Signed.equal, h]

example := C243_equal_sizes_violated 5 8 64 (by decide)

/-- **C243**: of one size, they are equal exactly when the numbers are.
Missing: numbers of different sizes, NaN, unknown bases and damaged texts (refuted:
`C243_equal_sizes_violated`, `C243_nan_violated`, `C243_unknown_base_violated` and others). -/
theorem C243_equal_signed_partial (n m s : U64) : Signed.equal ⟨n, s⟩ ⟨m, s⟩ = true ↔ n.toInt = m.toInt := by
  simp [Signed.equal, BitVec.toInt_inj]

/-! ## floating point: the value of the bits -/

/-- Specification: the value of IEEE bits; a finite value is given in units of the smallest positive number. -/
inductive FVal
  | nan
  | infinite (negative : Bool)
  | finite (units : Int)
deriving DecidableEq, Repr

/-- Specification: what the bits mean. -/
def valueOf (e m : Nat) (x : BitVec (1 + e + m)) : FVal :=
  let E := x.toNat / 2 ^ m % 2 ^ e
  let M := x.toNat % 2 ^ m
  let neg := decide (2 ^ (e + m) ≤ x.toNat)
  if E = 2 ^ e - 1 then (if M = 0 then .infinite neg else .nan)
  else
    let u : Nat := if E = 0 then M else (2 ^ m + M) * 2 ^ (E - 1)
    .finite (if neg then -(u : Int) else u)

theorem parts_eq (e m : Nat) (a b : BitVec (1 + e + m)) (hE : expOf e m a = expOf e m b)
    (hM : manOf e m a = manOf e m b) (hs : negOf e m a = negOf e m b) : a = b := by
  apply BitVec.eq_of_toNat_eq
  unfold expOf at hE
  unfold manOf at hM
  unfold negOf at hs
  have key : ∀ x : BitVec (1 + e + m),
      x.toNat = (if 2 ^ (e + m) ≤ x.toNat then 1 else 0) * 2 ^ (e + m) + x.toNat / 2 ^ m % 2 ^ e * 2 ^ m + x.toNat % 2 ^ m := by
    intro x
    have h1 := Nat.div_add_mod x.toNat (2 ^ m)
    have h2 := Nat.div_add_mod (x.toNat / 2 ^ m) (2 ^ e)
    have h3 : x.toNat / 2 ^ m / 2 ^ e = if 2 ^ (e + m) ≤ x.toNat then 1 else 0 := by
      rw [Nat.div_div_eq_div_mul, ← Nat.pow_add, Nat.add_comm m e]
      have hlt : x.toNat < 2 * 2 ^ (e + m) := by
        have h5 : 2 ^ (1 + e + m) = 2 * 2 ^ (e + m) := by rw [← Nat.pow_succ']; congr 1; omega
        exact h5 ▸ x.isLt
      have hpos := Nat.two_pow_pos (e + m)
      split
      · rename_i h
        apply Nat.div_eq_of_lt_le <;> omega
      · rename_i h
        exact Nat.div_eq_of_lt (by omega)
    rw [h3] at h2
    have h4 : 2 ^ (e + m) = 2 ^ m * 2 ^ e := by rw [Nat.pow_add, Nat.mul_comm]
    generalize hb : (if 2 ^ (e + m) ≤ x.toNat then 1 else 0 : Nat) = bit at *
    calc x.toNat = 2 ^ m * (x.toNat / 2 ^ m) + x.toNat % 2 ^ m := h1.symm
      _ = 2 ^ m * (2 ^ e * bit + x.toNat / 2 ^ m % 2 ^ e) + x.toNat % 2 ^ m := by rw [h2]
      _ = bit * 2 ^ (e + m) + x.toNat / 2 ^ m % 2 ^ e * 2 ^ m + x.toNat % 2 ^ m := by
        rw [h4, Nat.mul_add, Nat.mul_comm (2 ^ m) (x.toNat / 2 ^ m % 2 ^ e), ← Nat.mul_assoc,
          Nat.mul_comm (2 ^ m * 2 ^ e) bit]
  have hs' : (2 ^ (e + m) ≤ a.toNat) = (2 ^ (e + m) ≤ b.toNat) := propext (by simpa using hs)
  rw [key a, key b, hE, hM]
  simp only [hs']

/-- the magnitude, in units -/
def mag (m E M : Nat) : Nat := if E = 0 then M else (2 ^ m + M) * 2 ^ (E - 1)

theorem mag_lt (m E M : Nat) (hM : M < 2 ^ m) : mag m E M < 2 ^ (m + E) := by
  unfold mag
  split
  · subst_vars; simpa using hM
  · have : 2 ^ (m + E) = (2 ^ m + 2 ^ m) * 2 ^ (E - 1) := by
      rw [← Nat.two_mul, ← Nat.pow_succ', ← Nat.pow_add]
      congr 1; omega
    rw [this]
    exact Nat.mul_lt_mul_of_pos_right (by omega) (Nat.two_pow_pos _)

theorem le_mag (m E M : Nat) (hE : E ≠ 0) : 2 ^ (m + (E - 1)) ≤ mag m E M := by
  unfold mag
  rw [if_neg hE, Nat.pow_add]
  exact Nat.mul_le_mul_right _ (by omega)

theorem mag_inj (m E M E' M' : Nat) (hM : M < 2 ^ m) (hM' : M' < 2 ^ m) (h : mag m E M = mag m E' M') :
    E = E' ∧ M = M' := by
  have step : ∀ E M E' M', M < 2 ^ m → mag m E M = mag m E' M' → ¬ E < E' := by
    intro E M E' M' hM h hlt
    have h1 := mag_lt m E M hM
    have h2 := le_mag m E' M' (by omega)
    have h3 : 2 ^ (m + E) ≤ 2 ^ (m + (E' - 1)) := Nat.pow_le_pow_right (by omega) (by omega)
    omega
  have e : E = E' := by
    have a := step E M E' M' hM h
    have b := step E' M' E M hM' h.symm
    omega
  subst e
  refine ⟨rfl, ?_⟩
  unfold mag at h
  split at h
  · exact h
  · have := Nat.eq_of_mul_eq_mul_right (Nat.two_pow_pos _) h
    omega

/-- **C161**: two floating point numbers, of any format, are equal for `Equal` exactly when they have the same value and are numbers at
all: the two zeros are equal, infinities of one sign are equal, and all other values have one representation only. -/
theorem C161_equal_floats (e m : Nat) (he : 0 < e) (a b : BitVec (1 + e + m)) :
    equalFloat e m a b = true ↔ valueOf e m a = valueOf e m b ∧ valueOf e m a ≠ .nan := by
  have hMa : manOf e m a < 2 ^ m := Nat.mod_lt _ (Nat.two_pow_pos m)
  have hMb : manOf e m b < 2 ^ m := Nat.mod_lt _ (Nat.two_pow_pos m)
  have va : ∀ x : BitVec (1 + e + m), valueOf e m x =
      if expOf e m x = 2 ^ e - 1 then (if manOf e m x = 0 then .infinite (negOf e m x) else .nan)
      else .finite (if negOf e m x then -(mag m (expOf e m x) (manOf e m x) : Int) else mag m (expOf e m x) (manOf e m x)) := by
    intro x
    rfl
  rw [va a, va b]
  have mz : ∀ E M, mag m E M = 0 ↔ E = 0 ∧ M = 0 := by
    intro E M
    unfold mag
    split
    · subst_vars; simp
    · rename_i hE
      have h1 := Nat.two_pow_pos (E - 1)
      have h2 := Nat.two_pow_pos m
      constructor
      · intro h
        rcases Nat.mul_eq_zero.mp h with h | h <;> omega
      · rintro ⟨h, -⟩; exact absurd h hE
  have hab : a = b ↔ expOf e m a = expOf e m b ∧ manOf e m a = manOf e m b ∧ negOf e m a = negOf e m b :=
    ⟨fun h => by subst h; exact ⟨rfl, rfl, rfl⟩, fun ⟨h1, h2, h3⟩ => parts_eq e m a b h1 h2 h3⟩
  have inj := mag_inj m (expOf e m a) (manOf e m a) (expOf e m b) (manOf e m b) hMa hMb
  have za := mz (expOf e m a) (manOf e m a)
  have zb := mz (expOf e m b) (manOf e m b)
  unfold equalFloat isNaN isZero
  simp only [Bool.and_eq_true, Bool.not_eq_true', decide_eq_false_iff_not, Bool.or_eq_true, beq_iff_eq, decide_eq_true_eq, hab]
  generalize expOf e m a = Ea at *
  generalize expOf e m b = Eb at *
  generalize manOf e m a = Ma at *
  generalize manOf e m b = Mb at *
  generalize negOf e m a = na at *
  generalize negOf e m b = nb at *
  have htop : 2 ^ e - 1 ≠ 0 := by
    have := Nat.pow_le_pow_right (n := 2) (by omega) he
    omega
  clear va mz
  generalize 2 ^ e - 1 = top at *
  generalize hga : mag m Ea Ma = ga at *
  generalize hgb : mag m Eb Mb = gb at *
  cases na <;> cases nb <;> grind

/-- Cases: in 64 bits, 1.0 equals itself, the zeros are equal, and 1.0 differs from 2.0. -/
example : equalF64 0x3FF0000000000000#64 0x3FF0000000000000#64 = true ∧
    equalF64 0x8000000000000000#64 0#64 = true ∧
    equalF64 0x3FF0000000000000#64 0x4000000000000000#64 = false := by decide +kernel

/-- **C243** violated for NaN: a NaN is not equal to itself, whatever its bits, in both sizes; so `Equal` is no equivalence on the
values a program can hold. -/
theorem C243_nan_violated :
    (∀ a : BitVec (1 + 8 + 23), isNaN 8 23 a = true → equalF32 a a = false) ∧
    (∀ a : BitVec (1 + 11 + 52), isNaN 11 52 a = true → equalF64 a a = false) ∧
    isNaN 8 23 0x7FC00000#32 = true ∧ isNaN 11 52 0x7FF8000000000000#64 = true := by
  refine ⟨fun a h => ?_, fun a h => ?_, by decide +kernel, by decide +kernel⟩ <;>
    simp [equalF32, equalF64, equalFloat, h]

/-- **C161**: on everything but NaN, `Equal` is an equivalence. -/
theorem C161_equal_floats_equivalence (e m : Nat) (he : 0 < e) (a b c : BitVec (1 + e + m)) :
    (isNaN e m a = false → equalFloat e m a a = true) ∧
    (equalFloat e m a b = true → equalFloat e m b a = true) ∧
    (equalFloat e m a b = true → equalFloat e m b c = true → equalFloat e m a c = true) := by
  refine ⟨fun h => by simp [equalFloat, h], fun h => ?_, fun h h' => ?_⟩
  · rw [C161_equal_floats e m he] at h ⊢
    exact ⟨h.1.symm, h.1 ▸ h.2⟩
  · rw [C161_equal_floats e m he] at h h' ⊢
    exact ⟨h.1.trans h'.1, h.2⟩

example := (C161_equal_floats_equivalence 11 52 (by decide) 0x8000000000000000#64 0#64 0x8000000000000000#64).2.2 (by decide +kernel)
  (by decide +kernel)

/-! ## reading from text -/

/-- **C161**: the general reader of an unsigned number reads decimal notation: the text of every number, of every size, is read back as that
number without an error, whatever the object held before. -/
theorem C161_general_reader :
    (∀ u v : U8, read8 u (toString v) = (v, none)) ∧ (∀ u v : U16, read16 u (toString v) = (v, none)) ∧
    (∀ u v : U32, read32 u (toString v) = (v, none)) ∧ (∀ u v : U64, read64 u (toString v) = (v, none)) := by
  obtain ⟨h1, h2, h3, h4⟩ := C08_print_parse
  exact ⟨h1, h2, h3, h4⟩

/-- **C161**: the general readers of 8, 16 and 32 bits refuse every text that is empty or has a byte that is no digit. -/
theorem C161_general_reader_refuses (u8 : U8) (u16 : U16) (u32 : U32) (s : Bytes) (h : s = [] ∨ ∃ c ∈ s, ¬ IsDigit c) :
    (read8 u8 s).2 ≠ none ∧ (read16 u16 s).2 ≠ none ∧ (read32 u32 s).2 ≠ none := by
  have no : ¬ (s ≠ [] ∧ AllDigits s) := by
    rintro ⟨h1, h2⟩
    rcases h with h | ⟨c, hc, hd⟩
    · exact h1 h
    · exact hd (h2 c hc)
  refine ⟨fun hn => ?_, fun hn => ?_, fun hn => ?_⟩
  · have := (C06_u8 u8 s).1.1 hn; exact no ⟨this.1, this.2.1⟩
  · have := (C06_u16 u16 s).1.1 hn; exact no ⟨this.1, this.2.1⟩
  · have := (C06_u32 u32 s).1.1 hn; exact no ⟨this.1, this.2.1⟩

example := C161_general_reader_refuses 7 7 7 (bs "2x6") (.inr ⟨ch 'x', by decide, by decide⟩)

/-- **C243** violated for texts of unknown base: nothing is read and no error answered, whatever the text. -/
theorem C243_unknown_base_violated {w} (u : BitVec w) (s : Bytes) : readUnknownBase u s = (u, none) := rfl

/-- **C161**: a floating point number written and read is the same number, when the standard library's formatting is read by its
parsing; the value the object held before does not matter. -/
theorem C161_float_text {w} (format : BitVec w → Bytes) (parse : Bytes → BitVec w × Bool) (f old : BitVec w)
    (hstd : parse (format f) = (f, false)) : fromStringFloat parse old (toStringFloat format f) = (f, none) := by
  simp [fromStringFloat, toStringFloat, hstd]

example := C161_float_text toString (fun s => if AllDigits s ∧ s ≠ [] then (BitVec.ofNat 64 (decVal s), false) else (0, true)) 12#64 7
  (by decide +kernel)

/-- **C243** violated for damaged texts of floating point numbers: no text is refused; a text the parser refuses overwrites the number (by
zero, or by an infinity). -/
theorem C243_float_error_violated {w} (parse : Bytes → BitVec w × Bool) (old v : BitVec w) (s : Bytes)
    (hbad : parse s = (v, true)) : fromStringFloat parse old s = (v, none) := by
  simp [fromStringFloat, hbad]

/-- Case: a parser of decimal digits that answers 0 and an error otherwise. -/
example : let parse : Bytes → BitVec 64 × Bool := fun s => if AllDigits s ∧ s ≠ [] then (BitVec.ofNat 64 (decVal s), false) else (0, true)
    fromStringFloat parse 7 (bs "x") = (0, none) ∧ fromStringFloat parse 7 (toStringFloat toString 12#64) = (12#64, none) := by
  decide +kernel

end Memar.Math
