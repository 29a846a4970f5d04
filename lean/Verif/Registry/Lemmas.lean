import Verif.Registry.Model

/-!
# One key of a registry as a slot

`f op` says what a call does to the slot: nothing (`none`), empty it (`some none`) or offer a value
(`some (some x)`).
-/

namespace Memar.Registry

variable {β ν : Type}

/-- Induction over a history from its end. -/
theorem history_induction {α} {P : List α → Prop} (nil : P [])
    (concat : ∀ h x, P h → P (h ++ [x])) (h : List α) : P h := by
  have : ∀ n (l : List α), l.length = n → P l := by
    intro n
    induction n with
    | zero => intro l hl; have := List.length_eq_zero_iff.1 hl; subst this; exact nil
    | succ n ih =>
      intro l hl
      have hne : l ≠ [] := by intro e; subst e; simp at hl
      rw [← List.dropLast_concat_getLast hne]
      exact concat _ _ (ih _ (by simp [hl]))
  exact this h.length h rfl

/-- The last offer wins. -/
def lastWins (f : β → Option (Option ν)) (h : List β) : Option ν :=
  h.foldl (fun s op => match f op with
    | some v => v
    | none => s) none

/-- The first offer to an empty slot wins. -/
def firstWins (f : β → Option (Option ν)) (h : List β) : Option ν :=
  h.foldl (fun s op => match f op with
    | some (some x) => some (s.getD x)
    | some none => none
    | none => s) none

theorem lastWins_concat (f : β → Option (Option ν)) (h : List β) (op : β) :
    lastWins f (h ++ [op]) = match f op with
      | some v => v
      | none => lastWins f h := by
  simp [lastWins, List.foldl_append]

theorem firstWins_concat (f : β → Option (Option ν)) (h : List β) (op : β) :
    firstWins f (h ++ [op]) = match f op with
      | some (some x) => some ((firstWins f h).getD x)
      | some none => none
      | none => firstWins f h := by
  simp [firstWins, List.foldl_append]

theorem lastWins_iff (f : β → Option (Option ν)) (h : List β) (x : ν) :
    lastWins f h = some x ↔
      ∃ h1 op h2, h = h1 ++ op :: h2 ∧ f op = some (some x) ∧ ∀ o ∈ h2, f o = none := by
  induction h using history_induction with
  | nil => simp [lastWins]
  | concat h op ih =>
    rw [lastWins_concat]
    constructor
    · intro hx
      cases hf : f op with
      | some v =>
        rw [hf] at hx
        exact ⟨h, op, [], rfl, by rw [hf, ← hx], by simp⟩
      | none =>
        rw [hf] at hx
        obtain ⟨h1, o, h2, e, ho, hall⟩ := ih.1 hx
        refine ⟨h1, o, h2 ++ [op], by simp [e], ho, ?_⟩
        intro y hy
        rcases List.mem_append.1 hy with hy | hy
        · exact hall y hy
        · simp only [List.mem_singleton] at hy; subst hy; exact hf
    · intro ⟨h1, o, h2, e, ho, hall⟩
      induction h2 using history_induction with
      | nil =>
        have := List.append_inj' e rfl
        obtain ⟨_, e2⟩ := this
        injection e2 with e2
        subst e2
        rw [ho]
      | concat h2 z _ =>
        have e' : h ++ [op] = (h1 ++ o :: h2) ++ [z] := by rw [e]; simp
        have := List.append_inj' e' rfl
        obtain ⟨e1, e2⟩ := this
        injection e2 with e2
        subst e2
        rw [hall op (by simp)]
        exact ih.2 ⟨h1, o, h2, e1, ho, fun y hy => hall y (by simp [hy])⟩

/-- An empty slot: the last call that touches it empties it, or there is none. -/
theorem firstWins_none (f : β → Option (Option ν)) (h : List β) :
    firstWins f h = none ↔ ∃ h1 h2, h = h1 ++ h2 ∧ (h1 = [] ∨ ∃ h0 d, h1 = h0 ++ [d] ∧ f d = some none) ∧
      ∀ o ∈ h2, f o = none := by
  induction h using history_induction with
  | nil => exact ⟨fun _ => ⟨[], [], rfl, .inl rfl, by simp⟩, fun _ => rfl⟩
  | concat h op ih =>
    rw [firstWins_concat]
    constructor
    · intro hx
      cases hf : f op with
      | some v =>
        cases v with
        | some v => rw [hf] at hx; simp at hx
        | none => exact ⟨h ++ [op], [], by simp, .inr ⟨h, op, rfl, hf⟩, by simp⟩
      | none =>
        rw [hf] at hx
        obtain ⟨h1, h2, e, h0, hall⟩ := ih.1 hx
        refine ⟨h1, h2 ++ [op], by simp [e], h0, ?_⟩
        intro y hy
        rcases List.mem_append.1 hy with hy | hy
        · exact hall y hy
        · simp only [List.mem_singleton] at hy; subst hy; exact hf
    · intro ⟨h1, h2, e, h0, hall⟩
      induction h2 using history_induction with
      | nil =>
        rw [List.append_nil] at e
        rcases h0 with h0 | ⟨h0, d, h0', hd⟩
        · subst h0; simp at e
        · rw [h0'] at e
          have := List.append_inj' e rfl
          obtain ⟨_, e2⟩ := this
          injection e2 with e2
          subst e2
          rw [hd]
      | concat h2 z _ =>
        have e' : h ++ [op] = (h1 ++ h2) ++ [z] := by rw [e]; simp
        have := List.append_inj' e' rfl
        obtain ⟨e1, e2⟩ := this
        injection e2 with e2
        subst e2
        rw [hall op (by simp)]
        exact ih.2 ⟨h1, h2, e1, h0, fun y hy => hall y (by simp [hy])⟩

theorem firstWins_iff (f : β → Option (Option ν)) (h : List β) (x : ν) :
    firstWins f h = some x ↔
      ∃ h1 mid op h2, h = h1 ++ mid ++ op :: h2 ∧ f op = some (some x) ∧
        (h1 = [] ∨ ∃ h0 d, h1 = h0 ++ [d] ∧ f d = some none) ∧
        (∀ o ∈ mid, f o = none) ∧ ∀ o ∈ h2, f o ≠ some none := by
  induction h using history_induction with
  | nil => simp [firstWins]
  | concat h op ih =>
    rw [firstWins_concat]
    constructor
    · intro hx
      have ext : f op ≠ some none → firstWins f h = some x →
          ∃ h1 mid o h2, h ++ [op] = h1 ++ mid ++ o :: h2 ∧ f o = some (some x) ∧
            (h1 = [] ∨ ∃ h0 d, h1 = h0 ++ [d] ∧ f d = some none) ∧
            (∀ o ∈ mid, f o = none) ∧ ∀ o ∈ h2, f o ≠ some none := by
        intro hf hx
        obtain ⟨h1, mid, o, h2, e, ho, h0, hm, hall⟩ := ih.1 hx
        refine ⟨h1, mid, o, h2 ++ [op], by simp [e], ho, h0, hm, ?_⟩
        intro y hy
        rcases List.mem_append.1 hy with hy | hy
        · exact hall y hy
        · simp only [List.mem_singleton] at hy; subst hy; exact hf
      cases hf : f op with
      | none =>
        rw [hf] at hx
        exact ext (by rw [hf]; simp) hx
      | some v =>
        cases v with
        | none => rw [hf] at hx; simp at hx
        | some v =>
          rw [hf] at hx
          cases hw : firstWins f h with
          | some w =>
            rw [hw] at hx
            exact ext (by rw [hf]; simp) (by rw [hw]; exact hx)
          | none =>
            rw [hw] at hx
            obtain ⟨h1, mid, e, h0, hm⟩ := (firstWins_none f h).1 hw
            exact ⟨h1, mid, op, [], by rw [e], by rw [hf]; exact congrArg some hx, h0, hm, by simp⟩
    · intro ⟨h1, mid, o, h2, e, ho, h0, hm, hall⟩
      induction h2 using history_induction with
      | nil =>
        have := List.append_inj' e rfl
        obtain ⟨e1, e2⟩ := this
        injection e2 with e2
        subst e2
        rw [ho, (firstWins_none f h).2 ⟨h1, mid, e1, h0, hm⟩]
        rfl
      | concat h2 z _ =>
        have e' : h ++ [op] = (h1 ++ mid ++ o :: h2) ++ [z] := by rw [e]; simp
        have := List.append_inj' e' rfl
        obtain ⟨e1, e2⟩ := this
        injection e2 with e2
        subst e2
        have hx := ih.2 ⟨h1, mid, o, h2, e1, ho, h0, hm, fun y hy => hall y (by simp [hy])⟩
        have hop := hall op (by simp)
        cases hf : f op with
        | none => exact hx
        | some v =>
          cases v with
          | none => exact absurd hf hop
          | some v => rw [hx]; rfl

end Memar.Registry
