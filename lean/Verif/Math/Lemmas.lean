import Verif.Math.Model

namespace Memar.Math
open Memar Memar.Decimal

theorem isDigit_iff (c : Byte) : (48#8 ≤ c ∧ c ≤ 57#8) ↔ IsDigit c := by
  simp [IsDigit, BitVec.le_def]

theorem digit_sub (c : Byte) (h : IsDigit c) : (c - 48).toNat = c.toNat - 48 := by
  unfold IsDigit at h
  have := c.isLt
  rw [BitVec.toNat_sub]
  change (2 ^ 8 - 48 + c.toNat) % 2 ^ 8 = _
  omega

theorem AllDigits_cons (c : Byte) (s : Bytes) : AllDigits (c :: s) ↔ IsDigit c ∧ AllDigits s := by
  simp [AllDigits]

theorem step_toNat {w} (n : BitVec w) (c : Byte) (h : IsDigit c) (hw : 8 ≤ w)
    (hb : n.toNat * 10 + 9 < 2 ^ w) :
    (n * 10 + (c - 48).setWidth w).toNat = n.toNat * 10 + (c.toNat - 48) := by
  have hc := h
  unfold IsDigit at hc
  have h8 : (2:Nat) ^ 8 ≤ 2 ^ w := Nat.pow_le_pow_right (by omega) hw
  have hten : (10 : BitVec w).toNat = 10 := by
    change (BitVec.ofNat w 10).toNat = 10
    rw [BitVec.toNat_ofNat]; apply Nat.mod_eq_of_lt; omega
  rw [BitVec.toNat_add, BitVec.toNat_mul, BitVec.toNat_setWidth, digit_sub c h, hten]
  rw [Nat.mod_eq_of_lt (a := n.toNat * 10) (by omega), Nat.mod_eq_of_lt (a := c.toNat - 48) (by omega),
    Nat.mod_eq_of_lt (by omega)]

/-- the bounded digit loop computes the decimal value or fails -/
theorem parseLoop_ok {w} (max : BitVec w) (hw : 8 ≤ w) (hm : max.toNat * 10 + 9 < 2 ^ w) (s : Bytes) :
    ∀ n : BitVec w, n ≤ max → ∀ v, parseLoop max n s = .ok v ↔
      AllDigits s ∧ decFrom n.toNat s ≤ max.toNat ∧ v.toNat = decFrom n.toNat s := by
  induction s with
  | nil =>
    intro n hn v
    simp only [parseLoop, Except.ok.injEq, decFrom, List.foldl_nil]
    constructor
    · intro h; subst h; exact ⟨by simp [AllDigits], hn, rfl⟩
    · intro h; exact (BitVec.eq_of_toNat_eq h.2.2).symm
  | cons c s ih =>
    intro n hn v
    rw [parseLoop, AllDigits_cons, decFrom_cons]
    by_cases hc : IsDigit c
    · rw [if_pos ((isDigit_iff c).mpr hc)]
      simp only [hc, true_and]
      have hnn : n.toNat ≤ max.toNat := hn
      have hs := step_toNat n c hc hw (by omega)
      by_cases hgt : n * 10 + (c - 48).setWidth w > max
      · rw [if_pos hgt]
        have hgt' : max.toNat < (n * 10 + (c - 48).setWidth w).toNat := hgt
        rw [hs] at hgt'
        have := le_decFrom (n.toNat * 10 + (c.toNat - 48)) s
        constructor
        · intro h; cases h
        · intro h; omega
      · rw [if_neg hgt]
        have hle : n * 10 + (c - 48).setWidth w ≤ max := by
          rw [BitVec.le_def]
          have hgt' : ¬ (max.toNat < (n * 10 + (c - 48).setWidth w).toNat) := hgt
          omega
        rw [ih _ hle v, hs]
    · rw [if_neg (fun h => hc ((isDigit_iff c).mp h))]
      constructor
      · intro h; cases h
      · intro h; exact absurd h.1.1 hc

/-- an error other than a bad digit means the value is too large -/
theorem parseLoop_err {w} (max : BitVec w) (hw : 8 ≤ w) (hm : max.toNat * 10 + 9 < 2 ^ w) (s : Bytes) :
    ∀ n : BitVec w, n ≤ max → ∀ e, parseLoop max n s = .error e →
      (e = .badValue ∧ ¬ AllDigits s) ∨ (e = .outOfRange ∧ max.toNat < decFrom n.toNat s) := by
  induction s with
  | nil => intro n hn e h; cases h
  | cons c s ih =>
    intro n hn e h
    rw [parseLoop] at h
    rw [AllDigits_cons, decFrom_cons]
    by_cases hc : IsDigit c
    · rw [if_pos ((isDigit_iff c).mpr hc)] at h
      simp only [hc, true_and]
      have hnn : n.toNat ≤ max.toNat := hn
      have hs := step_toNat n c hc hw (by omega)
      by_cases hgt : n * 10 + (c - 48).setWidth w > max
      · simp only [if_pos hgt] at h
        cases h
        have hgt' : max.toNat < (n * 10 + (c - 48).setWidth w).toNat := hgt
        rw [hs] at hgt'
        have := le_decFrom (n.toNat * 10 + (c.toNat - 48)) s
        exact Or.inr ⟨rfl, by omega⟩
      · simp only [if_neg hgt] at h
        have hle : n * 10 + (c - 48).setWidth w ≤ max := by
          rw [BitVec.le_def]
          have hgt' : ¬ (max.toNat < (n * 10 + (c - 48).setWidth w).toNat) := hgt
          omega
        have := ih _ hle e h
        rwa [hs] at this
    · rw [if_neg (fun h => hc ((isDigit_iff c).mp h))] at h
      cases h
      exact Or.inl ⟨rfl, fun h => hc h.1⟩

/-- the 64-bit loop: success gives the value modulo 2^64 -/
theorem parseLoop64_ok (s : Bytes) : ∀ (n v : U64), parseLoop64 n s = .ok v →
    AllDigits s ∧ v.toNat = decFrom n.toNat s % 2 ^ 64 := by
  induction s with
  | nil =>
    intro n v h
    simp only [parseLoop64, Except.ok.injEq] at h
    subst h
    refine ⟨by simp [AllDigits], ?_⟩
    simp only [decFrom, List.foldl_nil]
    exact (Nat.mod_eq_of_lt n.isLt).symm
  | cons c s ih =>
    intro n v h
    rw [parseLoop64] at h
    by_cases hc : IsDigit c
    · rw [if_pos ((isDigit_iff c).mpr hc)] at h
      simp only at h
      split at h
      · cases h
      · have := ih _ _ h
        rw [AllDigits_cons, decFrom_cons]
        refine ⟨⟨hc, this.1⟩, ?_⟩
        rw [this.2, decFrom_eq, decFrom_eq (n.toNat * 10 + _)]
        have hm : (n * 10 + (c - 48).setWidth 64).toNat = (n.toNat * 10 + (c.toNat - 48)) % 2 ^ 64 := by
          have := c.isLt
          rw [BitVec.toNat_add, BitVec.toNat_mul, BitVec.toNat_setWidth, digit_sub c hc]
          change (n.toNat * 10 % _ + _) % _ = _
          omega
        rw [hm, Nat.add_mod, Nat.mul_mod, Nat.mod_mod, ← Nat.mul_mod, ← Nat.add_mod]
    · rw [if_neg (fun h => hc ((isDigit_iff c).mp h))] at h
      cases h

/-- the 64-bit loop accepts everything that fits -/
theorem parseLoop64_complete (s : Bytes) : ∀ (n : U64), AllDigits s → decFrom n.toNat s < 2 ^ 64 →
    ∃ v, parseLoop64 n s = .ok v := by
  induction s with
  | nil => intro n _ _; exact ⟨n, rfl⟩
  | cons c s ih =>
    intro n hd hv
    rw [AllDigits_cons] at hd
    rw [decFrom_cons] at hv
    have hle := le_decFrom (n.toNat * 10 + (c.toNat - 48)) s
    have hmul : (n * 10).toNat = n.toNat * 10 := by
      rw [BitVec.toNat_mul]
      change n.toNat * 10 % _ = _
      omega
    have hs : (n * 10 + (c - 48).setWidth 64).toNat = n.toNat * 10 + (c.toNat - 48) := by
      have := c.isLt
      rw [BitVec.toNat_add, hmul, BitVec.toNat_setWidth, digit_sub c hd.1]
      omega
    rw [parseLoop64, if_pos ((isDigit_iff c).mpr hd.1)]
    simp only
    rw [if_neg (by rw [BitVec.lt_def, hmul]; omega)]
    exact ih _ hd.2 (by rw [hs]; exact hv)

theorem parseLoop64_err (s : Bytes) : ∀ (n : U64) e, parseLoop64 n s = .error e →
    (e = .badValue ∧ ¬ AllDigits s) ∨ (e = .outOfRange ∧ 2 ^ 64 ≤ decFrom n.toNat s) := by
  induction s with
  | nil => intro n e h; cases h
  | cons c s ih =>
    intro n e h
    rw [parseLoop64] at h
    rw [AllDigits_cons, decFrom_cons]
    by_cases hc : IsDigit c
    · rw [if_pos ((isDigit_iff c).mpr hc)] at h
      simp only at h
      simp only [hc, true_and]
      have hle := le_decFrom (n.toNat * 10 + (c.toNat - 48)) s
      split at h
      · rename_i hlt
        cases h
        right
        refine ⟨rfl, ?_⟩
        rw [BitVec.lt_def, BitVec.toNat_mul] at hlt
        have : (10 : U64).toNat = 10 := rfl
        rw [this] at hlt
        have : ¬ n.toNat * 10 < 2 ^ 64 := by
          intro h2
          rw [Nat.mod_eq_of_lt h2] at hlt
          omega
        omega
      · rcases ih _ _ h with h1 | h1
        · exact Or.inl h1
        · right
          refine ⟨h1.1, ?_⟩
          rw [decFrom_eq] at h1 ⊢
          have hm : (n * 10 + (c - 48).setWidth 64).toNat ≤ n.toNat * 10 + (c.toNat - 48) := by
            have := c.isLt
            rw [BitVec.toNat_add, BitVec.toNat_mul, BitVec.toNat_setWidth, digit_sub c hc]
            have : (10 : U64).toNat = 10 := rfl
            rw [this]
            omega
          have := Nat.mul_le_mul_right (10 ^ s.length) hm
          omega
    · rw [if_neg (fun h => hc ((isDigit_iff c).mp h))] at h
      cases h
      exact Or.inl ⟨rfl, fun h => hc h.1⟩

end Memar.Math
