import Verif.Base

/-!
# Specification of decimal notation

`decVal s` is the number a string of ASCII digits denotes, `decDigits n` the usual decimal
notation of `n` (no leading zeros). Independent of any code in the repository.
-/

namespace Memar.Decimal
open Memar

/-- An ASCII digit. -/
def IsDigit (c : Byte) : Prop := 48 ≤ c.toNat ∧ c.toNat ≤ 57

instance (c : Byte) : Decidable (IsDigit c) := inferInstanceAs (Decidable (_ ∧ _))

/-- Every byte is an ASCII digit. -/
def AllDigits (s : Bytes) : Prop := ∀ c ∈ s, IsDigit c

instance (s : Bytes) : Decidable (AllDigits s) := inferInstanceAs (Decidable (∀ c ∈ s, IsDigit c))

/-- Reading digits after having read the number `a`. -/
def decFrom (a : Nat) (s : Bytes) : Nat := s.foldl (fun a c => a * 10 + (c.toNat - 48)) a

/-- The number denoted by a digit string. -/
def decVal (s : Bytes) : Nat := decFrom 0 s

/-- The digit character of `d < 10`. -/
def digitChar (d : Nat) : Byte := BitVec.ofNat 8 (48 + d)

/-- Decimal notation of a number. -/
def decDigits (n : Nat) : Bytes :=
  if n < 10 then [digitChar n] else decDigits (n / 10) ++ [digitChar (n % 10)]

/-- No redundant leading zero. -/
def Canonical (s : Bytes) : Prop := s ≠ [] ∧ AllDigits s ∧ (s.length ≤ 1 ∨ s.head? ≠ some 48)

theorem digitChar_toNat (d : Nat) (h : d < 10) : (digitChar d).toNat = 48 + d := by
  simp [digitChar]; omega

theorem digitChar_isDigit (d : Nat) (h : d < 10) : IsDigit (digitChar d) := by
  unfold IsDigit; rw [digitChar_toNat d h]; omega

theorem decFrom_append (a : Nat) (s t : Bytes) : decFrom a (s ++ t) = decFrom (decFrom a s) t := by
  simp [decFrom]

theorem decFrom_cons (a : Nat) (c : Byte) (s : Bytes) :
    decFrom a (c :: s) = decFrom (a * 10 + (c.toNat - 48)) s := by
  simp only [decFrom, List.foldl_cons]

theorem decFrom_eq (a : Nat) (s : Bytes) : decFrom a s = a * 10 ^ s.length + decVal s := by
  induction s generalizing a with
  | nil => simp [decFrom, decVal]
  | cons c s ih =>
    have h0 : decVal (c :: s) = decFrom (0 * 10 + (c.toNat - 48)) s := decFrom_cons 0 c s
    rw [decFrom_cons, ih, h0, ih (0 * 10 + _)]
    simp only [Nat.zero_mul, Nat.zero_add, List.length_cons, Nat.pow_succ, Nat.add_mul]
    rw [Nat.mul_assoc, Nat.mul_comm 10]; omega

theorem le_decFrom (a : Nat) (s : Bytes) : a ≤ decFrom a s := by
  rw [decFrom_eq]
  have : 0 < 10 ^ s.length := Nat.pow_pos (by omega)
  exact Nat.le_trans (Nat.le_mul_of_pos_right a this) (Nat.le_add_right _ _)

theorem decFrom_lt (a : Nat) (s : Bytes) (h : AllDigits s) : decFrom a s < (a + 1) * 10 ^ s.length := by
  induction s generalizing a with
  | nil => simp [decFrom]
  | cons c s ih =>
    have hc : IsDigit c := h c (by simp)
    have hs : AllDigits s := fun x hx => h x (by simp [hx])
    rw [decFrom_cons]
    have h1 := ih (a * 10 + (c.toNat - 48)) hs
    unfold IsDigit at hc
    have h2 : a * 10 + (c.toNat - 48) + 1 ≤ (a + 1) * 10 := by omega
    calc _ < _ := h1
      _ ≤ (a + 1) * 10 * 10 ^ s.length := Nat.mul_le_mul_right _ h2
      _ = _ := by rw [List.length_cons, Nat.pow_succ, Nat.mul_assoc, Nat.mul_comm 10]

theorem decVal_lt (s : Bytes) (h : AllDigits s) : decVal s < 10 ^ s.length := by
  have := decFrom_lt 0 s h
  simpa [decVal] using this

theorem decDigits_step (n : Nat) (h : 10 ≤ n) :
    decDigits n = decDigits (n / 10) ++ [digitChar (n % 10)] := by
  rw [decDigits, if_neg (by omega)]

theorem decDigits_small (n : Nat) (h : n < 10) : decDigits n = [digitChar n] := by
  rw [decDigits, if_pos h]

theorem decDigits_allDigits (n : Nat) : AllDigits (decDigits n) := by
  induction n using Nat.strongRecOn with
  | _ n ih =>
    by_cases h : n < 10
    · rw [decDigits_small n h]
      intro c hc; simp at hc; subst hc; exact digitChar_isDigit n h
    · rw [decDigits_step n (by omega)]
      intro c hc
      simp at hc
      rcases hc with hc | hc
      · exact ih (n / 10) (by omega) c hc
      · subst hc; exact digitChar_isDigit _ (by omega)

theorem decVal_decDigits (n : Nat) : decVal (decDigits n) = n := by
  induction n using Nat.strongRecOn with
  | _ n ih =>
    by_cases h : n < 10
    · rw [decDigits_small n h]
      simp [decVal, decFrom, digitChar_toNat n h]
    · rw [decDigits_step n (by omega), decVal, decFrom_append]
      have := ih (n / 10) (by omega)
      rw [decVal] at this
      rw [this]
      simp [decFrom, digitChar_toNat (n % 10) (by omega)]
      omega

theorem decDigits_ne_nil (n : Nat) : decDigits n ≠ [] := by
  by_cases h : n < 10
  · rw [decDigits_small n h]; simp
  · rw [decDigits_step n (by omega)]; simp

theorem decDigits_inj (m n : Nat) (h : decDigits m = decDigits n) : m = n := by
  have := congrArg decVal h
  rwa [decVal_decDigits, decVal_decDigits] at this

theorem decDigits_length_le (n k : Nat) (hk : 0 < k) (h : n < 10 ^ k) : (decDigits n).length ≤ k := by
  induction k generalizing n with
  | zero => omega
  | succ k ih =>
    by_cases hn : n < 10
    · rw [decDigits_small n hn]; simp
    · rw [decDigits_step n (by omega)]
      simp only [List.length_append, List.length_cons, List.length_nil]
      rw [Nat.pow_succ] at h
      cases k with
      | zero => simp at h; omega
      | succ k =>
        have := ih (n / 10) (by omega) (by omega)
        omega

theorem digitChar_of_isDigit (c : Byte) (h : IsDigit c) : digitChar (c.toNat - 48) = c := by
  unfold IsDigit at h
  apply BitVec.eq_of_toNat_eq
  rw [digitChar_toNat _ (by omega)]; omega

/-- A canonical digit string is the decimal notation of its value. -/
theorem decDigits_decVal (s : Bytes) (h : Canonical s) : decDigits (decVal s) = s := by
  obtain ⟨hne, hd, hz⟩ := h
  -- induction on the reversed string
  have key : ∀ (n : Nat) (s : Bytes), s.length = n + 1 → AllDigits s →
      (s.length ≤ 1 ∨ s.head? ≠ some 48) → decDigits (decVal s) = s := by
    intro n
    induction n with
    | zero =>
      intro s hl hd _
      match s, hl with
      | [c], _ =>
        have hc : IsDigit c := hd c (by simp)
        have hcd := hc
        unfold IsDigit at hc
        have : decVal [c] = c.toNat - 48 := by simp [decVal, decFrom]
        rw [this, decDigits_small _ (by omega), digitChar_of_isDigit c hcd]
    | succ n ih =>
      intro s hl hd hz
      have hne : s ≠ [] := by intro h; rw [h] at hl; simp at hl
      obtain ⟨t, c, rfl⟩ : ∃ t c, s = t ++ [c] := ⟨s.dropLast, s.getLast hne, (List.dropLast_concat_getLast hne).symm⟩
      have htl : t.length = n + 1 := by simp at hl; omega
      have hc : IsDigit c := hd c (by simp)
      have ht : AllDigits t := fun x hx => hd x (by simp [hx])
      have hh : t.head? ≠ some 48 := by
        rcases hz with hz | hz
        · simp at hz; rw [hz] at htl; simp at htl
        · cases t with
          | nil => simp at htl
          | cons a t => simpa using hz
      have hi := ih t htl ht (Or.inr hh)
      have hcd := hc
      unfold IsDigit at hc
      have hv : decVal (t ++ [c]) = decVal t * 10 + (c.toNat - 48) := by
        rw [decVal, decFrom_append]; rfl
      have hpos : 0 < decVal t := by
        cases t with
        | nil => simp at htl
        | cons a t =>
          have ha : IsDigit a := ht a (by simp)
          have ha2 : a.toNat ≠ 48 := by
            intro e; apply hh; simp
            apply BitVec.eq_of_toNat_eq; rw [e]; rfl
          unfold IsDigit at ha
          have := le_decFrom (0 * 10 + (a.toNat - 48)) t
          rw [decVal, decFrom_cons]; omega
      rw [hv, decDigits_step _ (by omega)]
      have h1 : (decVal t * 10 + (c.toNat - 48)) / 10 = decVal t := by omega
      have h2 : (decVal t * 10 + (c.toNat - 48)) % 10 = c.toNat - 48 := by omega
      rw [h1, h2, hi, digitChar_of_isDigit c hcd]
  cases hl : s.length with
  | zero => exact absurd (List.length_eq_zero_iff.mp hl) hne
  | succ n => exact key n s hl hd hz

theorem decDigits_canonical (n : Nat) : Canonical (decDigits n) := by
  refine ⟨decDigits_ne_nil n, decDigits_allDigits n, ?_⟩
  induction n using Nat.strongRecOn with
  | _ n ih =>
    by_cases h : n < 10
    · rw [decDigits_small n h]; simp
    · right
      rw [decDigits_step n (by omega)]
      have hne := decDigits_ne_nil (n / 10)
      rw [show ∀ (l m : Bytes), l ≠ [] → (l ++ m).head? = l.head? from fun l m h => by cases l <;> simp_all] <;> try exact hne
      by_cases h10 : n / 10 < 10
      · rw [decDigits_small _ h10]
        simp only [List.head?_cons]
        intro he
        have := congrArg BitVec.toNat (Option.some.inj he)
        rw [digitChar_toNat _ h10] at this
        simp at this; omega
      · rcases ih (n / 10) (by omega) with hl | hl
        · rw [decDigits_step _ (by omega)] at hl
          simp at hl
          exact absurd hl (decDigits_ne_nil _)
        · exact hl

end Memar.Decimal
