import Verif.Net.AddrModel
import Verif.Net.AddrSpec
import Verif.BaseLemmas

namespace Memar.Net
open Memar AddrSpec

namespace Ipv4Addr

theorem digit_table : ∀ d < 10, (BitVec.ofNat 8 (Nat.digitChar d).toNat : Byte) = BitVec.ofNat 8 (48 + d) := by decide +kernel

theorem dec_small (n : Nat) (h : n < 10) : dec n = [BitVec.ofNat 8 (48 + n)] := by
  unfold dec
  rw [Nat.toDigits_of_lt_base h]
  simp only [List.map_cons, List.map_nil]
  rw [digit_table n h]

theorem dec_step (n : Nat) (h : 10 ≤ n) : dec n = dec (n / 10) ++ [BitVec.ofNat 8 (48 + n % 10)] := by
  have := Nat.toDigits_append_toDigits (b := 10) (n := n / 10) (d := n % 10) (by omega) (by omega) (Nat.mod_lt _ (by omega))
  rw [Nat.div_add_mod] at this
  unfold dec
  rw [← this, List.map_append]
  have h2 := dec_small (n % 10) (Nat.mod_lt _ (by omega))
  unfold dec at h2
  rw [h2]

theorem dec_val (n : Nat) (h : n < 256) : dec n = if n < 10 then [BitVec.ofNat 8 (48 + n)] else
    if n < 100 then [BitVec.ofNat 8 (48 + n / 10), BitVec.ofNat 8 (48 + n % 10)] else
    [BitVec.ofNat 8 (48 + n / 100), BitVec.ofNat 8 (48 + n / 10 % 10), BitVec.ofNat 8 (48 + n % 10)] := by
  split
  · exact dec_small n ‹_›
  · rw [dec_step n (by omega)]
    split
    · rw [dec_small _ (by omega)]; rfl
    · rw [dec_step _ (by omega), dec_small _ (by omega), Nat.div_div_eq_div_mul]; rfl

theorem dec_eq (v : Byte) :
    dec v.toNat = (if v < 10#8 then [v + 48#8] else if v < 100#8 then [v / 10#8 + 48#8, v % 10#8 + 48#8]
      else [v / 100#8 + 48#8, (v / 10#8) % 10#8 + 48#8, v % 10#8 + 48#8]) := by
  rw [dec_val _ v.isLt]
  have e : ∀ (a : Nat) (b : Byte), b.toNat = a → (BitVec.ofNat 8 (48 + a) : Byte) = b + 48#8 := by
    intro a b h; subst h; apply BitVec.eq_of_toNat_eq; simp; omega
  have l1 : v < 10#8 ↔ v.toNat < 10 := by rw [BitVec.lt_def]; rfl
  have l2 : v < 100#8 ↔ v.toNat < 100 := by rw [BitVec.lt_def]; rfl
  simp only [l1, l2]
  rw [e v.toNat v rfl, e (v.toNat / 10) (v / 10#8) (by simp), e (v.toNat % 10) (v % 10#8) (by simp),
    e (v.toNat / 100) (v / 100#8) (by simp), e (v.toNat / 10 % 10) (v / 10#8 % 10#8) (by simp)]

theorem dec_len (v : Byte) : 1 ≤ (dec v.toNat).length ∧ (dec v.toNat).length ≤ 3 := by
  rw [dec_eq]; split
  · simp
  · split <;> simp

theorem set_at (pre : Bytes) (k : Nat) (r : Bytes) (x : Byte) (h : k < r.length) :
    setAt (pre ++ r) (pre.length + k) x = some (pre ++ r.set k x) := by
  rw [setAt, if_pos (by simp; omega), List.set_append_right _ _ (by omega)]
  congr 3; omega

theorem ubtoa_eq (pre : Bytes) (r : Bytes) (v : Byte) (h : 3 ≤ r.length) :
    ubtoa (pre ++ r) pre.length v
      = some (pre ++ dec v.toNat ++ r.drop (dec v.toNat).length, (dec v.toNat).length) := by
  match r, h with
  | x :: y :: z :: r, _ =>
    have s0 := fun r x (h : 0 < r.length) => set_at pre 0 r x h
    simp only [Nat.add_zero] at s0
    rw [dec_eq]
    unfold ubtoa
    split
    · rw [s0 _ _ (by simp)]; simp
    · split
      · rw [set_at _ 1 _ _ (by simp)]
        simp only [Option.bind_some]
        rw [s0 _ _ (by simp)]; simp
      · rw [set_at _ 2 _ _ (by simp)]
        simp only [Option.bind_some]
        rw [set_at _ 1 _ _ (by simp)]
        simp only [Option.bind_some]
        rw [s0 _ _ (by simp)]; simp

theorem octetDot_eq (pre : Bytes) (r : Bytes) (v : Byte) (h : 4 ≤ r.length) :
    octetDot (pre ++ r) pre.length v
      = some ((pre ++ dec v.toNat ++ [ch '.']) ++ r.drop ((dec v.toNat).length + 1),
          (pre ++ dec v.toNat ++ [ch '.']).length) := by
  have hl := dec_len v
  rw [octetDot, ubtoa_eq pre r v (by omega)]
  simp only [Option.bind_some]
  have := set_at (pre ++ dec v.toNat) 0 (r.drop (dec v.toNat).length) (ch '.') (by simp; omega)
  simp only [List.length_append, Nat.add_zero] at this
  rw [this, Option.map_some]
  congr 2
  · rw [List.append_assoc _ [ch '.']]
    congr 1
    rw [← List.drop_drop]
    have hne : r.drop (dec v.toNat).length ≠ [] := by
      intro e; have := congrArg List.length e; simp at this; omega
    cases hr : r.drop (dec v.toNat).length with
    | nil => exact absurd hr hne
    | cons a t => simp
  · simp; omega

/-- The digits of a numeral drive the loop to the value. -/
theorem dtoiLoop_digits (ds : Bytes) (hd : ∀ c ∈ ds, 48#8 ≤ c ∧ c ≤ 57#8) (n i : Nat) (rest : Bytes)
    (hb : ds.foldl (fun n c => n * 10 + (c - 48#8).toNat) n < big) :
    dtoiLoop n i (ds ++ rest)
      = dtoiLoop (ds.foldl (fun n c => n * 10 + (c - 48#8).toNat) n) (i + ds.length) rest := by
  induction ds generalizing n i with
  | nil => simp
  | cons c s ih =>
    have hmono : ∀ (s : Bytes) (m : Nat), m ≤ s.foldl (fun n c => n * 10 + (c - 48#8).toNat) m := by
      intro s
      induction s with
      | nil => intro m; simp
      | cons c s ih => intro m; simp only [List.foldl_cons]; exact Nat.le_trans (by omega) (ih _)
    simp only [List.foldl_cons] at hb
    have h1 := hmono s (n * 10 + (c - 48#8).toNat)
    rw [List.cons_append, dtoiLoop, if_pos (hd c (by simp)), if_neg (by omega),
      ih (fun c hc => hd c (by simp [hc])) _ _ hb]
    simp only [List.foldl_cons, List.length_cons]
    congr 1; omega

theorem dec_digits : ∀ n < 256, (∀ c ∈ dec n, 48#8 ≤ c ∧ c ≤ 57#8) ∧
    (dec n).foldl (fun n c => n * 10 + (c - 48#8).toNat) 0 = n ∧
    ((dec n).length > 1 → (dec n).head? ≠ some 48#8) := by
  intro n hn
  have t : ∀ d < 10, (48#8 ≤ (BitVec.ofNat 8 (48 + d) : Byte) ∧ (BitVec.ofNat 8 (48 + d) : Byte) ≤ 57#8) ∧
      ((BitVec.ofNat 8 (48 + d) : Byte) - 48#8).toNat = d ∧
      ((BitVec.ofNat 8 (48 + d) : Byte) = 48#8 → d = 0) := by decide +kernel
  rw [dec_val n hn]
  split
  · have := t n ‹_›
    refine ⟨by simp [this.1], ?_, by simp⟩
    simp only [List.foldl_cons, List.foldl_nil, this.2.1]; omega
  · split
    · have h1 := t (n / 10) (by omega)
      have h2 := t (n % 10) (by omega)
      refine ⟨by simp [h1.1, h2.1], ?_, ?_⟩
      · simp only [List.foldl_cons, List.foldl_nil, h1.2.1, h2.2.1]; omega
      · intro _ hh
        have := h1.2.2 (by simpa using hh)
        omega
    · have h0 := t (n / 100) (by omega)
      have h1 := t (n / 10 % 10) (by omega)
      have h2 := t (n % 10) (by omega)
      refine ⟨by simp [h0.1, h1.1, h2.1], ?_, ?_⟩
      · simp only [List.foldl_cons, List.foldl_nil, h0.2.1, h1.2.1, h2.2.1]; omega
      · intro _ hh
        have := h0.2.2 (by simpa using hh)
        omega

theorem dtoi_dec (v : Byte) (rest : Bytes) (hr : ∀ c, rest.head? = some c → ¬ (48#8 ≤ c ∧ c ≤ 57#8)) :
    dtoi (dec v.toNat ++ rest) = (v.toNat, (dec v.toNat).length, true) := by
  obtain ⟨h1, h2, _⟩ := dec_digits v.toNat v.isLt
  have hl := dec_len v
  have hv := v.isLt
  rw [dtoi, dtoiLoop_digits _ h1 0 0 rest (by rw [h2, big]; omega), h2]
  cases rest with
  | nil => rw [dtoiLoop, if_neg (by omega)]; simp
  | cons c s => rw [dtoiLoop, if_neg (hr c rfl), if_neg (by omega)]; simp

theorem octet_dec (v : Byte) (rest : Bytes)
    (hr : ∀ c, rest.head? = some c → ¬ (48#8 ≤ c ∧ c ≤ 57#8)) :
    octet (dec v.toNat ++ rest) = some (v, rest) := by
  have hv := v.isLt
  have hl := dec_len v
  obtain ⟨_, _, h3⟩ := dec_digits v.toNat v.isLt
  rw [octet, dtoi_dec v rest hr, if_neg (by simp; omega), if_neg ?_]
  · simp
  · intro ⟨a, b⟩
    apply h3 a
    rw [← b]
    cases hd : dec v.toNat with
    | nil => rw [hd] at hl; simp at hl
    | cons c s => simp

end Ipv4Addr
end Memar.Net
