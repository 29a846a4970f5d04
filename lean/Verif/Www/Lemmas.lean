import Verif.Www.Model

/-! Helper lemmas: first occurrences of a marker. -/

namespace Memar.Www
open Memar Decimal

theorem indexOf_nil_iff (s m : Bytes) : indexOf s m = none ↔ ¬ m <:+: s := by
  induction s with
  | nil =>
    unfold indexOf
    by_cases h : m.isPrefixOf [] = true
    · rw [if_pos h]
      have : m <+: [] := List.isPrefixOf_iff_prefix.mp h
      simp [this.isInfix]
    · rw [if_neg h]
      simp only [true_iff]
      intro hi
      apply h
      have : m = [] := List.infix_nil.mp hi
      subst this; rfl
  | cons x s ih =>
    unfold indexOf
    by_cases h : m.isPrefixOf (x :: s) = true
    · rw [if_pos h]
      have : m <+: x :: s := List.isPrefixOf_iff_prefix.mp h
      simp [this.isInfix]
    · rw [if_neg h]
      simp only [Option.map_eq_none_iff, ih]
      rw [List.infix_cons_iff]
      constructor
      · intro h1 h2
        rcases h2 with h2 | h2
        · exact h (List.isPrefixOf_iff_prefix.mpr h2)
        · exact h1 h2
      · intro h1 h2; exact h1 (Or.inr h2)

/-- A marker that ends in a byte that it has nowhere else does not overlap itself. -/
def EndsUniquely (m : Bytes) : Prop := ∃ m' c, m = m' ++ [c] ∧ c ∉ m'

theorem not_prefix_early (m : Bytes) (hm : EndsUniquely m) (a r : Bytes) (ha : ¬ m <:+: a) (hne : a ≠ []) :
    ¬ m <+: a ++ (m ++ r) := by
  intro hp
  obtain ⟨m', c, hme, hc⟩ := hm
  have htake : m = (a ++ (m ++ r)).take m.length := (List.prefix_iff_eq_take.mp hp)
  rw [List.take_append] at htake
  by_cases hl : m.length ≤ a.length
  · apply ha
    have h0 : m.length - a.length = 0 := by omega
    rw [h0, List.take_zero, List.append_nil] at htake
    exact (List.prefix_iff_eq_take.mpr htake).isInfix
  · have hpos : 0 < a.length := List.length_pos_iff.mpr hne
    have hml : m.length = m'.length + 1 := by rw [hme]; simp
    have ht : (m ++ r).take (m.length - a.length) = m'.take (m.length - a.length) := by
      rw [hme, List.append_assoc, List.take_append_of_le_length]
      simp; omega
    rw [ht, List.take_of_length_le (by omega : a.length ≤ m.length)] at htake
    have hlast : m.getLast? = some c := by rw [hme]; simp
    have hne2 : m'.take (m.length - a.length) ≠ [] := by
      intro h
      have := congrArg List.length h
      simp at this
      rw [hml] at this
      have h2 : m' = [] := by
        rcases this with h | h
        · omega
        · exact h
      rw [h2] at hml; simp at hml; omega
    rw [htake, List.getLast?_append] at hlast
    have : (m'.take (m.length - a.length)).getLast? = some c := by
      cases h : (m'.take (m.length - a.length)).getLast? with
      | none => exact absurd (List.getLast?_eq_none_iff.mp h) hne2
      | some x =>
        rw [h] at hlast
        simpa using hlast
    have hmem := List.mem_of_getLast? this
    exact hc (List.mem_of_mem_take hmem)

/-- The first occurrence of a marker behind a piece without it. -/
theorem indexOf_first (m : Bytes) (hm : EndsUniquely m) (a r : Bytes) (ha : ¬ m <:+: a) :
    indexOf (a ++ (m ++ r)) m = some a.length := by
  induction a with
  | nil =>
    rw [List.nil_append]
    unfold indexOf
    rw [if_pos (List.isPrefixOf_iff_prefix.mpr (List.prefix_append _ _))]
    rfl
  | cons x a ih =>
    have h1 := not_prefix_early m hm (x :: a) r ha (by simp)
    rw [List.cons_append] at h1 ⊢
    unfold indexOf
    rw [if_neg (fun h => h1 (List.isPrefixOf_iff_prefix.mp h))]
    simp only
    rw [ih (fun h => ha (h.trans (List.suffix_cons x a).isInfix))]
    rfl

theorem htmlMark_unique : EndsUniquely htmlMark := ⟨bs "${LocaleText", ch '[', by decide, by decide⟩
theorem jsMark_unique : EndsUniquely jsMark := ⟨bs "LocaleText", ch '[', by decide, by decide⟩
theorem importWord_unique : EndsUniquely importWord := ⟨bs "import", ch ' ', by decide, by decide⟩

theorem rbracket_not_digits (n : Nat) : ch ']' ∉ decDigits n := by
  intro h
  have := decDigits_allDigits n _ h
  revert this; decide

theorem parse_decDigits (k : Nat) (h : k < 256) : parseUint8 (decDigits k) = some k := by
  unfold parseUint8
  rw [if_pos ⟨decDigits_allDigits k, decDigits_ne_nil k, by rw [decVal_decDigits]; exact h⟩, decVal_decDigits]

/-- One round on a bracketed item. -/
theorem localise_step (mark : Bytes) (hm : EndsUniquely mark) (hb : ch ']' ∉ mark) (text : List Bytes)
    (a num rest mix : Bytes) (ha : ¬ mark <:+: a) (hn : ch ']' ∉ num) :
    localiseLoop mark text (a ++ (mark ++ (num ++ ch ']' :: rest))) mix =
      match parseUint8 num with
      | none => localiseLoop mark text rest (mix ++ a)
      | some k =>
        match text[k]? with
        | none => none
        | some t => localiseLoop mark text rest (mix ++ a ++ t) := by
  have hbr : indexByte (mark ++ (num ++ ch ']' :: rest)) (ch ']') = some (mark.length + num.length) := by
    have := indexByte_append (mark ++ num) rest (ch ']') (by simp [hb, hn])
    rw [List.append_assoc, List.length_append] at this
    exact this
  have hdrop : (mark ++ (num ++ ch ']' :: rest)).drop (mark.length + num.length + 1) = rest := by
    have : mark ++ (num ++ ch ']' :: rest) = (mark ++ num ++ [ch ']']) ++ rest := by simp
    rw [this, List.drop_left' (by simp; omega)]
  have hnum : ((mark ++ (num ++ ch ']' :: rest)).take (mark.length + num.length)).drop mark.length = num := by
    have : mark ++ (num ++ ch ']' :: rest) = (mark ++ num) ++ ch ']' :: rest := by simp
    rw [this, List.take_left' (by simp), List.drop_left' rfl]
  rw [localiseLoop]
  rw [indexOf_first mark hm a _ ha]
  have hd : (a ++ (mark ++ (num ++ ch ']' :: rest))).drop a.length = mark ++ (num ++ ch ']' :: rest) :=
    List.drop_left' rfl
  have ht : (a ++ (mark ++ (num ++ ch ']' :: rest))).take a.length = a := List.take_left' rfl
  simp only [ht]
  split
  · rename_i h; rw [hd, hbr] at h; cases h
  · rename_i b h
    rw [hd, hbr] at h
    cases h
    rw [hd, if_neg (by omega), hnum, hdrop]
    cases parseUint8 num with
    | none => rfl
    | some k => simp only; cases text[k]? <;> rfl

end Memar.Www
