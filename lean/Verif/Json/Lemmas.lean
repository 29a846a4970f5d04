import Verif.Json.Model

/-! Helper lemmas for the JSON codec. -/

namespace Memar.Json
open Memar Decimal

/-- An end token. -/
def EndTok (t : Byte) : Prop := t = ch ',' ∨ t = ch ']' ∨ t = ch '}'

instance (t : Byte) : Decidable (EndTok t) := inferInstanceAs (Decidable (_ ∨ _))

theorem digit_iff (c : Byte) : digit c = true ↔ IsDigit c := by
  simp [digit, IsDigit, BitVec.le_def]

theorem not_endTok_digit (c : Byte) (h : IsDigit c) : ¬ EndTok c := by
  intro e
  unfold IsDigit at h
  rcases e with e | e | e <;> subst e <;> revert h <;> decide

theorem findEnd_append (a : Bytes) (t : Byte) (rest : Bytes) (ha : ∀ c ∈ a, ¬ EndTok c)
    (ht : EndTok t) : findEnd (a ++ t :: rest) = some (a, t, t :: rest) := by
  induction a with
  | nil =>
    rw [List.nil_append, findEnd]
    rcases ht with h | h | h
    · rw [if_pos h, h]
    · rw [if_neg (by rw [h]; decide), if_pos h, h]
    · rw [if_neg (by rw [h]; decide), if_neg (by rw [h]; decide), if_pos h, h]
  | cons c a ih =>
    have hc : ¬ EndTok c := ha c (by simp)
    unfold EndTok at hc
    simp only [not_or] at hc
    rw [List.cons_append, findEnd, if_neg hc.1, if_neg hc.2.1, if_neg hc.2.2,
      ih (fun x hx => ha x (by simp [hx]))]
    rfl

theorem findEnd_none (a : Bytes) (ha : ∀ c ∈ a, ¬ EndTok c) : findEnd a = none := by
  induction a with
  | nil => rfl
  | cons c a ih =>
    have hc : ¬ EndTok c := ha c (by simp)
    unfold EndTok at hc
    simp only [not_or] at hc
    rw [findEnd, if_neg hc.1, if_neg hc.2.1, if_neg hc.2.2, ih (fun x hx => ha x (by simp [hx]))]
    rfl

/-- What `findEnd` returns: the buffer split before its first end token. -/
theorem findEnd_some (b item rest : Bytes) (t : Byte) (h : findEnd b = some (item, t, rest)) :
    b = item ++ rest ∧ EndTok t ∧ (∀ c ∈ item, ¬ EndTok c) ∧ ∃ r, rest = t :: r := by
  induction b generalizing item with
  | nil => cases h
  | cons c r ih =>
    rw [findEnd] at h
    split at h
    · rename_i hc; cases h; subst hc; exact ⟨rfl, by decide, by simp, r, rfl⟩
    · split at h
      · rename_i hc; cases h; subst hc; exact ⟨rfl, by decide, by simp, r, rfl⟩
      · split at h
        · rename_i hc; cases h; subst hc; exact ⟨rfl, by decide, by simp, r, rfl⟩
        · rename_i h1 h2 h3
          cases hf : findEnd r with
          | none => rw [hf] at h; cases h
          | some x =>
            obtain ⟨i, t', rest'⟩ := x
            rw [hf] at h
            cases h
            obtain ⟨e, ht, hn, hr⟩ := ih i hf
            refine ⟨by rw [e]; rfl, ht, ?_, hr⟩
            intro y hy
            rcases List.mem_cons.mp hy with hy | hy
            · subst hy; intro h; rcases h with h | h | h <;> contradiction
            · exact hn y hy

theorem dropTo_append (f : Byte → Bool) (a : Bytes) (c : Byte) (rest : Bytes)
    (ha : ∀ x ∈ a, f x = false) (hc : f c = true) : dropTo f (a ++ c :: rest) = c :: rest := by
  unfold dropTo
  have : (a ++ c :: rest).dropWhile (fun c => !f c) = c :: rest := by
    induction a with
    | nil => simp [hc]
    | cons x a ih =>
      rw [List.cons_append, List.dropWhile_cons, if_pos (by simp [ha x (by simp)])]
      exact ih (fun y hy => ha y (by simp [hy]))
  rw [this]

theorem dropTo_none (f : Byte → Bool) (a : Bytes) (ha : ∀ x ∈ a, f x = false) : dropTo f a = a := by
  unfold dropTo
  have : a.dropWhile (fun c => !f c) = [] := by
    induction a with
    | nil => rfl
    | cons x a ih =>
      rw [List.dropWhile_cons, if_pos (by simp [ha x (by simp)])]
      exact ih (fun y hy => ha y (by simp [hy]))
  rw [this]

theorem dropTo_length_le (f : Byte → Bool) (a : Bytes) : (dropTo f a).length ≤ a.length := by
  unfold dropTo
  split
  · exact Nat.le_refl _
  · rename_i r hr
    exact (List.dropWhile_sublist _).length_le

theorem decDigits_cons (n : Nat) : ∃ c r, decDigits n = c :: r ∧ IsDigit c := by
  have h := decDigits_ne_nil n
  have ha := decDigits_allDigits n
  cases hd : decDigits n with
  | nil => exact absurd hd h
  | cons c r => exact ⟨c, r, rfl, ha c (by rw [hd]; simp)⟩

theorem decDigits_noEnd (n : Nat) : ∀ c ∈ decDigits n, ¬ EndTok c :=
  fun c hc => not_endTok_digit c (decDigits_allDigits n c hc)

theorem trim_digits (a : Bytes) (n : Nat) (rest : Bytes) (ha : ∀ x ∈ a, ¬ IsDigit x) :
    dropTo digit (a ++ (decDigits n ++ rest)) = decDigits n ++ rest := by
  obtain ⟨c, r, e, hc⟩ := decDigits_cons n
  rw [e, List.cons_append]
  apply dropTo_append
  · intro x hx
    have := ha x hx
    rw [← digit_iff] at this
    simpa using this
  · exact (digit_iff c).mpr hc

theorem encodeSliceLoop_eq {w} (buf : Bytes) (s : List (BitVec w)) :
    encodeSliceLoop buf s = buf ++ (s.map fun v => decDigits v.toNat ++ [ch ',']).flatten := by
  induction s generalizing buf with
  | nil => simp [encodeSliceLoop]
  | cons v r ih =>
    rw [encodeSliceLoop, ih, encodeByte, encodeUInt]
    simp

/-- A list of numbers separated by commas. -/
def commaList {w} : List (BitVec w) → Bytes
  | [] => []
  | [v] => decDigits v.toNat
  | v :: r => decDigits v.toNat ++ ch ',' :: commaList r

theorem commaList_cons {w} (v u : BitVec w) (r : List (BitVec w)) :
    commaList (v :: u :: r) = decDigits v.toNat ++ ch ',' :: commaList (u :: r) := rfl

theorem flatten_eq {w} (v : BitVec w) (r : List (BitVec w)) :
    ((v :: r).map fun v => decDigits v.toNat ++ [ch ',']).flatten = commaList (v :: r) ++ [ch ','] := by
  induction r generalizing v with
  | nil => simp [commaList]
  | cons u r ih =>
    rw [List.map_cons, List.flatten_cons, ih u]
    rw [commaList_cons]
    simp

theorem encodeSlice_eq {w} (buf : Bytes) (v : BitVec w) (r : List (BitVec w)) :
    encodeSlice buf (v :: r) = some (buf ++ commaList (v :: r)) := by
  rw [encodeSlice, encodeSliceLoop_eq, flatten_eq, removeTrailingComma, ← List.append_assoc,
    List.getLast?_append]
  simp

end Memar.Json
