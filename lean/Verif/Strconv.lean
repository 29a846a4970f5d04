import Verif.Decimal

/-!
# Go's `strconv.ParseUint` for base 10 and 64 bits, the number it returns beside its error

Standard library, not part of the repository. The digits are read from the left: a byte that is no digit makes the answer 0 (ErrSyntax), a number that leaves
64 bits makes it the largest number (ErrRange), whichever comes first.
-/

namespace Memar.Decimal
open Memar

/-- The loop of `strconv.ParseUint` over the bytes, after the number `n`. -/
def parseUintLoop (n : Nat) : Bytes → BitVec 64
  | [] => BitVec.ofNat 64 n
  | c :: r =>
    if IsDigit c then
      if n * 10 + (c.toNat - 48) < 18446744073709551616 then parseUintLoop (n * 10 + (c.toNat - 48)) r else BitVec.allOnes 64
    else 0

/-- `strconv.ParseUint(s, 10, 64)` with its error ignored. -/
def parseUint64 (s : Bytes) : BitVec 64 := if s = [] then 0 else parseUintLoop 0 s

theorem parseUintLoop_digits : ∀ (s : Bytes) (n : Nat), AllDigits s → n < 18446744073709551616 →
    parseUintLoop n s = if decFrom n s < 18446744073709551616 then BitVec.ofNat 64 (decFrom n s) else BitVec.allOnes 64
  | [], n, _, hn => by
    show BitVec.ofNat 64 n = if n < 18446744073709551616 then BitVec.ofNat 64 n else _
    rw [if_pos hn]
  | c :: r, n, h, hn => by
    rw [parseUintLoop, if_pos (h c (by simp)), decFrom_cons]
    by_cases h1 : n * 10 + (c.toNat - 48) < 18446744073709551616
    · rw [if_pos h1, parseUintLoop_digits r _ (fun x hx => h x (by simp [hx])) h1]
    · rw [if_neg h1, if_neg]
      have := le_decFrom (n * 10 + (c.toNat - 48)) r
      omega

theorem parseUintLoop_bad (c : Byte) (hc : ¬ IsDigit c) (r : Bytes) : ∀ (s : Bytes) (n : Nat), AllDigits s → n < 18446744073709551616 →
    parseUintLoop n (s ++ c :: r) = if decFrom n s < 18446744073709551616 then 0 else BitVec.allOnes 64
  | [], n, _, hn => by
    show parseUintLoop n (c :: r) = if n < 18446744073709551616 then 0 else _
    rw [if_pos hn, parseUintLoop, if_neg hc]
  | d :: s, n, h, hn => by
    rw [List.cons_append, parseUintLoop, if_pos (h d (by simp)), decFrom_cons]
    by_cases h1 : n * 10 + (d.toNat - 48) < 18446744073709551616
    · rw [if_pos h1, parseUintLoop_bad c hc r s _ (fun x hx => h x (by simp [hx])) h1]
    · rw [if_neg h1, if_neg]
      have := le_decFrom (n * 10 + (d.toNat - 48)) s
      omega

/-- A text of digits reads as its number, cut to the largest. -/
theorem parseUint64_digits (s : Bytes) (h : AllDigits s) (hs : s ≠ []) :
    parseUint64 s = if decVal s < 18446744073709551616 then BitVec.ofNat 64 (decVal s) else BitVec.allOnes 64 := by
  rw [parseUint64, if_neg hs, parseUintLoop_digits s 0 h (by omega)]; rfl

/-- A text with a byte that is no digit reads as zero, or as the largest number when the digits before that byte are too many. -/
theorem parseUint64_bad (s : Bytes) (h : AllDigits s) (c : Byte) (hc : ¬ IsDigit c) (r : Bytes) :
    parseUint64 (s ++ c :: r) = if decVal s < 18446744073709551616 then 0 else BitVec.allOnes 64 := by
  rw [parseUint64, if_neg (by simp), parseUintLoop_bad c hc r s 0 h (by omega)]; rfl

theorem parseUint64_decDigits (n : BitVec 64) : parseUint64 (decDigits n.toNat) = n := by
  rw [parseUint64_digits _ (decDigits_allDigits _) (decDigits_ne_nil _), decVal_decDigits, if_pos n.isLt]
  exact BitVec.eq_of_toNat_eq (by simp)

/-- Where the first byte that is no digit stands. -/
theorem split_bad (s : Bytes) (h : ¬ AllDigits s) : ∃ p c r, s = p ++ c :: r ∧ AllDigits p ∧ ¬ IsDigit c := by
  induction s with
  | nil => exact absurd (fun c hc => nomatch hc) h
  | cons b s ih =>
    by_cases hb : IsDigit b
    · obtain ⟨p, c, r, e, hp, hc⟩ := ih (fun hs => h (fun x hx => by
        rcases List.mem_cons.mp hx with rfl | hx
        · exact hb
        · exact hs x hx))
      refine ⟨b :: p, c, r, by rw [e]; rfl, ?_, hc⟩
      intro x hx
      rcases List.mem_cons.mp hx with rfl | hx
      · exact hb
      · exact hp x hx
    · exact ⟨[], b, s, rfl, (fun x hx => nomatch hx), hb⟩

/-- A text of up to 19 bytes that is not all digits reads as zero. -/
theorem parseUint64_short (s : Bytes) (h : ¬ AllDigits s) (hl : s.length ≤ 19) : parseUint64 s = 0 := by
  obtain ⟨p, c, r, e, hp, hc⟩ := split_bad s h
  rw [e, parseUint64_bad p hp c hc r, if_pos]
  have h1 := decVal_lt p hp
  have h2 : p.length ≤ 19 := by rw [e] at hl; simp at hl; omega
  have h3 : (10 : Nat) ^ p.length ≤ 10 ^ 19 := Nat.pow_le_pow_right (by omega) h2
  omega

end Memar.Decimal
