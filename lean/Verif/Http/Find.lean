import Verif.Http.HeaderProps

/-!
# Searching the header lines from an index, C310

`Header.find` of `Verif/Http/Header.lean` takes a natural number. Here the index is any `int`, as in the signature of `Header_Find`.
-/

namespace Memar.Http
open Memar

/-! ## Model -/

/-- `h.lines[i]` (net/http/header.go:108): `none` is the panic of an index that is negative or not below the number of lines. -/
def lineAt (lines : List KV) (i : Int) : Option KV := if i < 0 then none else lines[i.toNat]?

/-- net/http/header.go:107-112 the loop of `Header_Find`, and line 113. -/
def findFromLoop (lines : List KV) (key : Bytes) (i : Int) : Option (Bytes × Int) :=
  if i < lines.length then
    match lineAt lines i with
    | none => none
    | some hPair => if hPair.1 = key then some (hPair.2, i) else findFromLoop lines key (i + 1)
  else some ([], 0)
  termination_by ((lines.length : Int) - i).toNat

/-- net/http/header.go:105-114 `Header_Find` -/
def Header.findFrom (h : Header) (startIndex : Int) (key : Bytes) : Option (Bytes × Int) := findFromLoop h.lines key startIndex

/-! ## Specification -/

/-- Specification: line `i` is the first one from `start` on that has the name `key`, and its value is `v`. -/
def Spec.FirstLine (lines : List KV) (start : Nat) (key v : Bytes) (i : Nat) : Prop :=
  start ≤ i ∧ lines[i]? = some (key, v) ∧ ∀ j, start ≤ j → j < i → ∀ w, lines[j]? ≠ some (key, w)

/-- Specification: no line from `start` on has the name `key`. -/
def Spec.NoLine (lines : List KV) (start : Nat) (key : Bytes) : Prop := ∀ j, start ≤ j → ∀ w, lines[j]? ≠ some (key, w)

/-! ## Proofs -/

/-- From an index that is not negative this is the model of `Verif/Http/Header.lean`. -/
theorem findFrom_eq (h : Header) (start : Nat) (key : Bytes) : h.findFrom start key = some ((h.find start key).1, ((h.find start key).2 : Int)) := by
  unfold Header.findFrom Header.find
  fun_induction findLoop h.lines key start with
  | case1 i hi hk =>
    rw [findFromLoop, if_pos (by omega), lineAt, if_neg (by omega), Int.toNat_natCast, List.getElem?_eq_getElem hi]
    simp only [hk, if_true]
  | case2 i hi hk ih =>
    rw [findFromLoop, if_pos (by omega), lineAt, if_neg (by omega), Int.toNat_natCast, List.getElem?_eq_getElem hi]
    simp only [hk, if_false]
    exact ih
  | case3 i hi =>
    rw [findFromLoop, if_neg (by omega)]
    rfl


theorem findLoop_cases (lines : List KV) (key : Bytes) (i : Nat) :
    (∃ v k, Spec.FirstLine lines i key v k ∧ findLoop lines key i = (v, k)) ∨ (Spec.NoLine lines i key ∧ findLoop lines key i = ([], 0)) := by
  fun_induction findLoop lines key i with
  | case1 i h hk =>
    refine Or.inl ⟨lines[i].2, i, ⟨Nat.le_refl _, ?_, fun j h1 h2 => absurd h2 (by omega)⟩, rfl⟩
    rw [List.getElem?_eq_getElem h, ← hk]
  | case2 i h hk ih =>
    have hi : ∀ w, lines[i]? ≠ some (key, w) := by
      intro w e
      rw [List.getElem?_eq_getElem h, Option.some.injEq] at e
      exact hk (by rw [e])
    rcases ih with ⟨v, k, ⟨h1, h2, h3⟩, e⟩ | ⟨h1, e⟩
    · refine Or.inl ⟨v, k, ⟨by omega, h2, fun j j1 j2 => ?_⟩, e⟩
      by_cases hj : j = i
      · rw [hj]; exact hi
      · exact h3 j (by omega) j2
    · refine Or.inr ⟨fun j j1 => ?_, e⟩
      by_cases hj : j = i
      · rw [hj]; exact hi
      · exact h1 j (by omega)
  | case3 i h =>
    refine Or.inr ⟨fun j j1 w e => ?_, rfl⟩
    rw [List.getElem?_eq_none (by omega)] at e
    cases e

/-- **C310**, the part that holds: from a start that is not negative, however large, `Header_Find` answers the value and the index of the first line from there on with the given
name; when there is none it answers the empty text and zero.
Missing: that the two answers can be told apart (refuted: `C310_ambiguous_violated`), and an answer for a negative start (refuted: `C310_negative_violated`). -/
theorem C310_first_partial (h : Header) (start : Nat) (key : Bytes) :
    (∀ v i, Spec.FirstLine h.lines start key v i → h.findFrom start key = some (v, (i : Int))) ∧
    (Spec.NoLine h.lines start key → h.findFrom start key = some ([], 0)) ∧
    (∀ v i, h.findFrom start key = some (v, i) → v ≠ [] ∨ i ≠ 0 → 0 ≤ i ∧ Spec.FirstLine h.lines start key v i.toNat) := by
  rw [findFrom_eq]
  unfold Header.find
  rcases findLoop_cases h.lines key start with ⟨v, k, hf, hl⟩ | ⟨hn, hl⟩
  · rw [hl]
    refine ⟨fun v' i' h' => ?_, fun hn => absurd hf.2.1 (hn k hf.1 v), fun v' i' h' _ => by cases h'; exact ⟨by omega, hf⟩⟩
    obtain ⟨a1, a2, a3⟩ := hf
    obtain ⟨b1, b2, b3⟩ := h'
    have : k = i' := by
      rcases Nat.lt_trichotomy k i' with hlt | heq | hlt
      · exact absurd a2 (b3 k a1 hlt v)
      · exact heq
      · exact absurd b2 (a3 i' b1 hlt v')
    subst this
    rw [a2] at b2
    cases b2; rfl
  · rw [hl]
    refine ⟨fun v' i' h' => absurd h'.2.1 (hn i' h'.1 v'), fun _ => rfl, fun v' i' h' hx => ?_⟩
    cases h'
    simp at hx

example : Spec.FirstLine [(bs "a", bs "1"), (bs "b", bs "2"), (bs "a", bs "3")] 1 (bs "a") (bs "3") 2 := by
  refine ⟨by decide, by decide +kernel, fun j h1 h2 w e => ?_⟩
  have : j = 1 := by omega
  subst this
  have h3 : (some (bs "b") : Option Bytes) = some (bs "a") := congrArg (Option.map Prod.fst) e
  exact absurd h3 (by decide +kernel)

example : (⟨[(bs "a", bs "1"), (bs "b", bs "2"), (bs "a", bs "3")]⟩ : Header).findFrom 1 (bs "a") = some (bs "3", 2) ∧
    (⟨[(bs "a", bs "1"), (bs "b", bs "2"), (bs "a", bs "3")]⟩ : Header).findFrom 3 (bs "a") = some ([], 0) := by decide +kernel

/-- C310 violated: a header whose first line has the name with an empty value, and a header without that name, get the same answer. -/
theorem C310_ambiguous_violated (key : Bytes) (rest lines : List KV) (hn : Spec.NoLine lines 0 key) :
    (⟨(key, []) :: rest⟩ : Header).findFrom 0 key = (⟨lines⟩ : Header).findFrom 0 key := by
  have h1 := (C310_first_partial ⟨(key, []) :: rest⟩ 0 key).1 [] 0 ⟨Nat.le_refl _, rfl, fun j _ h2 => absurd h2 (by omega)⟩
  have h2 := (C310_first_partial ⟨lines⟩ 0 key).2.1 hn
  exact h1.trans h2.symm

example : Spec.NoLine [] 0 (bs "Cookie") := fun j _ w e => by simp at e

/-- C310 violated: a header just initialised has sixteen blank lines, so a search for the empty name finds one at each of the first sixteen indexes, though nothing was added. -/
theorem C310_blank_violated (i : Nat) (hi : i < 16) : Spec.FirstLine Header.init.lines i [] [] i ∧ Header.init.findFrom i [] = some ([], (i : Int)) := by
  have hf : Spec.FirstLine Header.init.lines i [] [] i := by
    refine ⟨Nat.le_refl _, ?_, fun j h1 h2 => absurd h2 (by omega)⟩
    unfold Header.init headerInitLen
    rw [List.getElem?_replicate, if_pos hi]
  exact ⟨hf, (C310_first_partial Header.init i []).1 [] i hf⟩

/-- C310 violated: every search from a negative index ends in a panic, with whatever lines, none included. -/
theorem C310_negative_violated (h : Header) (start : Int) (hs : start < 0) (key : Bytes) : h.findFrom start key = none := by
  unfold Header.findFrom
  rw [findFromLoop, if_pos (by omega), lineAt, if_pos hs]

example : (⟨[]⟩ : Header).findFrom (-1) (bs "Host") = none := C310_negative_violated _ _ (by decide) _

end Memar.Http
