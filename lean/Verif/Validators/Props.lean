import Verif.Validators.Model

/-!
# Properties of the validators (C26, C50)

## Specification of the Luhn check

Digits are numbers below ten.  From the right, every second digit (beginning with the one left of
the check digit) is doubled and replaced by its cross sum; the number is valid when the sum of all
digits is a multiple of ten.
-/

namespace Memar.Validators

/-- The sum of the decimal digits of a number below one hundred. -/
def crossSum (n : Nat) : Nat := n / 10 + n % 10

/-- The Luhn sum of the digits given from right to left. -/
def luhnSum (doubled : Bool) : List Nat → Nat
  | [] => 0
  | d :: t => (if doubled then crossSum (2 * d) else d) + luhnSum (!doubled) t

/-- A decimal number is valid. -/
def LuhnValid (ds : List Nat) : Prop := luhnSum false ds.reverse % 10 = 0

/-- The decimal text of digits. -/
def text (ds : List Nat) : Bytes := ds.map fun d => BitVec.ofNat 8 (48 + d)

/-- All digits are below ten. -/
def Digits (ds : List Nat) : Prop := ∀ d ∈ ds, d < 10

/-! ## Helpers -/

theorem byte_digit (d : Nat) (h : d < 10) : (BitVec.ofNat 8 (48 + d) - ch '0').toNat = d := by
  have : ∀ d < 10, (BitVec.ofNat 8 (48 + d) - ch '0').toNat = d := by decide +kernel
  exact this d h

theorem luhnStep_digit (b : Bool) (s d : Nat) (h : d < 10) :
    luhnStep (b, s) (BitVec.ofNat 8 (48 + d)) = (!b, s + (if b then crossSum (2 * d) else d)) := by
  simp only [luhnStep, byte_digit d h]
  cases b
  · simp
  · have : ∀ d < 10, (if d * 2 > 9 then d * 2 % 10 + 1 else d * 2) = crossSum (2 * d) := by
      decide +kernel
    simp [this d h]

theorem foldl_luhn (b : Bool) (s : Nat) (ds : List Nat) (h : Digits ds) :
    ((text ds).foldl luhnStep (b, s)).2 = s + luhnSum b ds := by
  induction ds generalizing b s with
  | nil => simp [text, luhnSum]
  | cons d t ih =>
    have h1 := h d (by simp)
    show ((text t).foldl luhnStep (luhnStep (b, s) (BitVec.ofNat 8 (48 + d)))).2 = _
    rw [luhnStep_digit b s d h1, ih _ _ (fun e he => h e (by simp [he]))]
    simp only [luhnSum]; omega

/-- The flag after `n` more digits. -/
def flip (b : Bool) (n : Nat) : Bool := if n % 2 = 0 then b else !b

theorem flip_succ (b : Bool) (n : Nat) : flip (!b) n = flip b (n + 1) := by
  unfold flip
  rcases Nat.mod_two_eq_zero_or_one n with h | h
  · have : (n + 1) % 2 = 1 := by omega
    simp [h, this]
  · have : (n + 1) % 2 = 0 := by omega
    simp [h, this]

theorem luhnSum_append (b : Bool) (x y : List Nat) :
    luhnSum b (x ++ y) = luhnSum b x + luhnSum (flip b x.length) y := by
  induction x generalizing b with
  | nil => simp [luhnSum, flip]
  | cons d t ih =>
    simp only [List.cons_append, luhnSum, ih, List.length_cons, ← flip_succ]
    omega

/-- The weight of one digit. -/
def weight (b : Bool) (d : Nat) : Nat := if b then crossSum (2 * d) else d

theorem weight_inj : ∀ b : Bool, ∀ d < 10, ∀ e < 10, weight b d % 10 = weight b e % 10 → d = e := by
  decide +kernel

theorem weight_swap : ∀ b : Bool, ∀ d < 10, ∀ e < 10,
    ((weight b d + weight (!b) e) % 10 = (weight b e + weight (!b) d) % 10 ↔
      d = e ∨ (d = 0 ∧ e = 9) ∨ (d = 9 ∧ e = 0)) := by decide +kernel

/-! ## Luhn -/

/-- C26: the code decides exactly the Luhn validity of every digit string. -/
theorem C26_luhn_exact (ds : List Nat) (h : Digits ds) :
    luhnAlgorithm (text ds) = true ↔ LuhnValid ds := by
  have hr : (text ds).reverse = text ds.reverse := by simp [text]
  rw [luhnAlgorithm, hr, foldl_luhn false 0 ds.reverse (fun d hd => h d (by simpa using hd))]
  simp [LuhnValid]

example := C26_luhn_exact [7, 9, 9, 2, 7, 3, 9, 8, 7, 1, 3] (by unfold Digits; decide)

theorem luhnSum_split (a c : List Nat) (d : Nat) :
    luhnSum false (a ++ d :: c).reverse
      = luhnSum false c.reverse + weight (flip false c.length) d
        + luhnSum (!flip false c.length) a.reverse := by
  have : (a ++ d :: c).reverse = c.reverse ++ (d :: a.reverse) := by simp
  rw [this, luhnSum_append]
  simp only [luhnSum, weight, List.length_reverse]
  omega

/-- C26: changing any one digit of an accepted number makes it rejected. -/
theorem C26_detects_single_error (a c : List Nat) (d e : Nat) (hd : d < 10) (he : e < 10)
    (ha : Digits a) (hc : Digits c) (hne : d ≠ e)
    (hok : luhnAlgorithm (text (a ++ d :: c)) = true) :
    luhnAlgorithm (text (a ++ e :: c)) = false := by
  have dig : ∀ x < 10, Digits (a ++ x :: c) := by
    intro x hx y hy
    simp at hy
    rcases hy with hy | rfl | hy
    · exact ha y hy
    · exact hx
    · exact hc y hy
  have h1 := (C26_luhn_exact _ (dig d hd)).1 hok
  apply Bool.eq_false_iff.2
  intro hk
  have h2 := (C26_luhn_exact _ (dig e he)).1 hk
  unfold LuhnValid at h1 h2
  rw [luhnSum_split] at h1 h2
  exact hne (weight_inj (flip false c.length) d hd e he (by omega))

example := C26_detects_single_error [7, 9, 9, 2] [3, 9, 8, 7, 1, 3] 7 4 (by decide) (by decide) (by unfold Digits; decide) (by unfold Digits; decide)
  (by decide) (by decide +kernel)

/-- C26: swapping two adjacent digits of an accepted number makes it rejected, unless they are
equal or a nine and a zero; these exceptions are always accepted again. -/
theorem C26_detects_transposition (a c : List Nat) (d e : Nat) (hd : d < 10) (he : e < 10)
    (ha : Digits a) (hc : Digits c) (hok : luhnAlgorithm (text (a ++ d :: e :: c)) = true) :
    luhnAlgorithm (text (a ++ e :: d :: c)) = true ↔
      d = e ∨ (d = 0 ∧ e = 9) ∨ (d = 9 ∧ e = 0) := by
  have dig : ∀ x < 10, ∀ z < 10, Digits (a ++ x :: z :: c) := by
    intro x hx z hz y hy
    simp at hy
    rcases hy with hy | rfl | rfl | hy
    · exact ha y hy
    · exact hx
    · exact hz
    · exact hc y hy
  have key : ∀ x z, luhnSum false (a ++ x :: z :: c).reverse
      = luhnSum false c.reverse + (weight (flip false c.length) z
        + weight (!flip false c.length) x) + luhnSum (!(!flip false c.length)) a.reverse := by
    intro x z
    have : (a ++ x :: z :: c).reverse = c.reverse ++ (z :: x :: a.reverse) := by simp
    rw [this, luhnSum_append]
    simp only [luhnSum, weight, List.length_reverse]
    omega
  have h1 := (C26_luhn_exact _ (dig d hd e he)).1 hok
  have hw := weight_swap (flip false c.length) d hd e he
  unfold LuhnValid at h1
  rw [key] at h1
  rw [C26_luhn_exact _ (dig e he d hd), LuhnValid, key, ← hw]
  omega

example := C26_detects_transposition [7, 9, 9] [3, 9, 8, 7, 1, 3] 2 7 (by decide) (by decide) (by unfold Digits; decide) (by unfold Digits; decide)
  (by decide +kernel)

/-- C26: every payload has exactly one check digit. -/
theorem C26_unique_check_digit (ds : List Nat) (h : Digits ds) :
    ∃ d < 10, ∀ e < 10, (luhnAlgorithm (text (ds ++ [e])) = true ↔ e = d) := by
  have key : ∀ e < 10, (luhnAlgorithm (text (ds ++ [e])) = true ↔
      (e + luhnSum true ds.reverse) % 10 = 0) := by
    intro e he
    rw [C26_luhn_exact]
    · simp [LuhnValid, luhnSum]
    · intro x hx
      simp at hx
      rcases hx with hx | rfl
      · exact h x hx
      · exact he
  refine ⟨(10 - luhnSum true ds.reverse % 10) % 10, by omega, fun e he => ?_⟩
  rw [key e he]
  omega

example : luhnAlgorithm (text [7, 9, 9, 2, 7, 3, 9, 8, 7, 1, 3]) = true ∧
    Digits [7, 9, 9, 2, 7, 3, 9, 8, 7, 1, 3] ∧
    luhnAlgorithm (text [7, 9, 9, 2, 7, 3, 9, 8, 7, 1, 4]) = false := by
  refine ⟨by decide +kernel, ?_, by decide +kernel⟩
  unfold Digits; decide

/-! ## The checksum function -/

theorem checksumDigit_digit : ∀ d < 10, ∀ i < 2,
    (checksumDigit i (BitVec.ofNat 8 (48 + d))).toNat = weight (i % 2 == 0) d := by
  decide +kernel

theorem checksumDigit_mod (i : Nat) (c : Byte) : checksumDigit i c = checksumDigit (i % 2) c := by
  simp [checksumDigit]

theorem checksumSum_append (i : Nat) (x y : Bytes) :
    checksumSum i (x ++ y) = checksumSum i x + checksumSum (i + x.length) y := by
  induction x generalizing i with
  | nil => simp [checksumSum]
  | cons c t ih =>
    simp only [List.cons_append, checksumSum, ih, List.length_cons]
    have : i + 1 + t.length = i + (t.length + 1) := by omega
    rw [this]; omega

/-- The sum of the code in terms of the specification: it doubles the digit next to the check digit
exactly when the number of digits before the check digit is odd. -/
theorem checksumSum_text (ds : List Nat) (h : Digits ds) :
    checksumSum 0 (text ds) = luhnSum (ds.length % 2 == 1) ds.reverse := by
  induction hl : ds.length generalizing ds with
  | zero => have := List.length_eq_zero_iff.1 hl; subst this; rfl
  | succ n ih =>
    rcases List.eq_nil_or_concat ds with rfl | ⟨t, d, rfl⟩
    · simp at hl
    · have ht : t.length = n := by simpa using hl
      have e := ih t (fun x hx => h x (by simp [hx])) ht
      have hd := h d (by simp)
      have : text (t ++ [d]) = text t ++ text [d] := by simp [text]
      rw [List.concat_eq_append, this, checksumSum_append, e]
      simp only [text, List.map_cons, List.map_nil, checksumSum, List.length_map, ht,
        List.reverse_append, List.reverse_cons, List.reverse_nil, List.nil_append,
        List.cons_append, luhnSum]
      rw [checksumDigit_mod, checksumDigit_digit d hd _ (by omega)]
      have h1 : ((n + 1) % 2 == 1) = ((0 + n) % 2 % 2 == 0) := by
        rw [Bool.eq_iff_iff]; simp; omega
      have h2 : (!((n + 1) % 2 == 1)) = (n % 2 == 1) := by
        rw [Bool.eq_iff_iff]; simp; omega
      rw [h2, h1]
      simp only [weight]; omega

/-- C185, what holds for the second function: on numbers of even length it returns the one check
digit that makes the payload valid, and reports validity exactly.
Missing: payloads of odd length and the empty one (refuted: `C185_checksum_odd_any_violated`,
`C185_checksum_odd_violated`, `C185_checksum_empty_violated`). -/
theorem C185_checksum_even_partial (ds : List Nat) (h : Digits ds) (c : Nat) (hc : c < 10)
    (hodd : ds.length % 2 = 1) :
    ∃ d < 10, luhnAlgorithmChecksum (text (ds ++ [c]))
        = some (luhnAlgorithm (text (ds ++ [c])), BitVec.ofNat 8 (48 + d)) ∧
      LuhnValid (ds ++ [d]) := by
  have hs := checksumSum_text ds h
  rw [hodd] at hs
  let d := (10 - luhnSum true ds.reverse % 10) % 10
  have hd : d < 10 := by omega
  have e1 : text (ds ++ [c]) = text ds ++ [BitVec.ofNat 8 (48 + c)] := by simp [text]
  have hdig : ∀ e < 10, Digits (ds ++ [e]) := by
    intro e he x hx
    simp at hx
    rcases hx with hx | rfl
    · exact h x hx
    · exact he
  have hv : ∀ e, LuhnValid (ds ++ [e]) ↔ (e + luhnSum true ds.reverse) % 10 = 0 := by
    intro e; simp [LuhnValid, luhnSum]
  have hvd : LuhnValid (ds ++ [d]) := (hv d).2 (by omega)
  refine ⟨d, hd, ?_, hvd⟩
  simp only [luhnAlgorithmChecksum, e1, List.getLast?_append, List.getLast?_singleton,
    Option.some_or, List.dropLast_concat, hs]
  have e2 : BitVec.ofNat 8 ((10 - luhnSum true ds.reverse % 10) % 10 + 48)
      = BitVec.ofNat 8 (48 + d) := by rw [Nat.add_comm]
  simp only [show ((1 : Nat) == 1) = true from rfl]
  rw [e2]
  congr 2
  rw [Bool.eq_iff_iff, ← e1, C26_luhn_exact _ (hdig c hc), hv c]
  have inj : ∀ x < 10, ∀ y < 10, ((BitVec.ofNat 8 (48 + x) == BitVec.ofNat 8 (48 + y)) = true ↔ x = y) := by
    decide +kernel
  rw [inj d hd c hc]
  omega

example := C185_checksum_even_partial [7, 9, 9] (by unfold Digits; decide) 2 (by decide) (by decide)

/-- C185 is violated by the second function on numbers of odd length: it doubles the wrong digits.
For every `k`, the valid number `18` with `2k+1` leading zeros is rejected. -/
theorem C185_checksum_odd_violated (k : Nat) :
    let ds := List.replicate (2 * k) 0 ++ [0, 1]
    LuhnValid (ds ++ [8]) ∧
      luhnAlgorithmChecksum (text (ds ++ [8])) = some (false, ch '9') := by
  intro ds
  have hdig : Digits ds := by
    intro x hx
    simp only [ds, List.mem_append, List.mem_replicate] at hx
    simp at hx
    omega
  have hz : ∀ (b : Bool) (n : Nat), luhnSum b (List.replicate n 0) = 0 := by
    intro b n
    induction n generalizing b with
    | zero => rfl
    | succ n ih => cases b <;> simp [List.replicate_succ, luhnSum, ih, crossSum]
  constructor
  · simp [LuhnValid, ds, luhnSum, hz, crossSum]
  · have hs := checksumSum_text ds hdig
    have hl : ds.length % 2 = 0 := by simp [ds]
    have e1 : text (ds ++ [8]) = text ds ++ [BitVec.ofNat 8 56] := by simp [text]
    rw [hl] at hs
    have : luhnSum ((0 : Nat) == 1) ds.reverse = 1 := by
      simp [ds, luhnSum, hz, crossSum]
    rw [this] at hs
    simp only [luhnAlgorithmChecksum, e1, List.getLast?_append, List.getLast?_singleton,
      Option.some_or, List.dropLast_concat, hs]
    decide

/-- C185: the empty slice makes the second function panic. -/
theorem C185_checksum_empty_violated : luhnAlgorithmChecksum [] = none := rfl

example : luhnAlgorithmChecksum (text [1, 8]) = some (true, ch '8') ∧
    luhnAlgorithmChecksum (text [0, 1, 8]) = some (false, ch '9') := by decide +kernel

/-! ## Text length -/

/-- C50: a text is accepted exactly when its length is at least the minimum and, if a maximum is
given (not zero), at most the maximum; and the error says which bound is broken. -/
theorem C50_text_length (t : Bytes) (min max : Int) :
    (validateTextLength t min max = none ↔
      min ≤ t.length ∧ (max = 0 ∨ (t.length : Int) ≤ max)) ∧
    (validateTextLength t min max = some .lack ↔ (t.length : Int) < min) ∧
    (validateTextLength t min max = some .overflow ↔
      min ≤ t.length ∧ max ≠ 0 ∧ max < t.length) := by
  unfold validateTextLength
  refine ⟨?_, ?_, ?_⟩ <;> (split <;> (try split)) <;> simp <;> omega

example : validateTextLength (bs "abc") 2 4 = none ∧ validateTextLength (bs "a") 2 4 = some .lack ∧
    validateTextLength (bs "abcde") 2 4 = some .overflow ∧
    validateTextLength (bs "abcde") 2 0 = none := by decide +kernel

end Memar.Validators
