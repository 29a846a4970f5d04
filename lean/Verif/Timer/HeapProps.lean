import Verif.Timer.HeapLemmas

/-!
# C18, C19: the timer heap loses nothing and keeps the earliest deadline first
-/

namespace Memar.Timer

variable {τ : Type} [DecidableEq τ]

/-! ## C18 -/

/-- Adding an entry never panics and stores exactly one more entry, the added one. -/
theorem C18_add_exact (l : List (Bucket τ)) (b : Bucket τ) :
    ∃ l', insert l b = some l' ∧ l'.Perm (b :: l) := by
  obtain ⟨l', h1, h2, _⟩ := insert_spec l b
  exact ⟨l', h1, h2⟩

/-- Sifting up at any index reorders the entries; it panics exactly outside the heap. -/
theorem C18_siftUp_exact (l : List (Bucket τ)) (i : Nat) :
    (i < l.length → ∃ l' j, siftUp l i = some (l', j) ∧ l'.Perm l ∧ j ≤ i ∧
      ∀ k, k < j → l'[k]? = l[k]?) ∧
    (l.length ≤ i → siftUp l i = none) := by
  constructor
  · intro h
    obtain ⟨l', j, r1, _, r3, r4, r5, _⟩ := siftUp_spec l i h
    exact ⟨l', j, r1, r4, r3, r5⟩
  · intro h; unfold siftUp; rw [List.getElem?_eq_none h]

/-- Sifting down at any index reorders the entries; it panics exactly outside the heap. -/
theorem C18_siftDown_exact (l : List (Bucket τ)) (i : Nat) :
    (i < l.length → ∃ l', siftDown l i = some l' ∧ l'.Perm l) ∧
    (l.length ≤ i → siftDown l i = none) := by
  constructor
  · intro h
    obtain ⟨l', r1, _, r3, _⟩ := siftDown_spec l i h
    exact ⟨l', r1, r3⟩
  · intro h; unfold siftDown; rw [List.getElem?_eq_none h]

/-- Deleting the entry at an index removes exactly that entry, and every index below the
reported one still holds the same entry. -/
theorem C18_delete_exact (l : List (Bucket τ)) (i : Nat) (b : Bucket τ) (h : l[i]? = some b) :
    ∃ l' j, deleteTimer l i = some (l', j) ∧ (b :: l').Perm l ∧ j ≤ i ∧
      ∀ k, k < j → l'[k]? = l[k]? := by
  obtain ⟨hi, hb⟩ := List.getElem?_eq_some_iff.mp h
  obtain ⟨l', j, r1, r2, r3, r4, _⟩ := deleteTimer_spec l i hi
  rw [hb] at r2
  exact ⟨l', j, r1, r2, r3, r4⟩

example := C18_delete_exact [⟨3, 30⟩, ⟨4, 45⟩, ⟨0, 50⟩, (⟨1, 40⟩ : Bucket Nat)] 1 ⟨4, 45⟩ rfl

/-- Deleting the first entry removes exactly that entry. -/
theorem C18_delete0_exact (l : List (Bucket τ)) (b : Bucket τ) (h : l[0]? = some b) :
    ∃ l', deleteTimer0 l = some l' ∧ (b :: l').Perm l := by
  obtain ⟨hi, hb⟩ := List.getElem?_eq_some_iff.mp h
  obtain ⟨l', r1, r2, _⟩ := deleteTimer0_spec l hi
  rw [hb] at r2
  exact ⟨l', r1, r2⟩

example := C18_delete0_exact [⟨3, 30⟩, ⟨4, 45⟩, ⟨0, 50⟩, (⟨1, 40⟩ : Bucket Nat)] ⟨3, 30⟩ rfl

/-- The operations panic exactly when asked to remove an entry that is not there. -/
theorem C18_panics_iff (l : List (Bucket τ)) (o : Op τ) :
    o.run l = none ↔ (∃ i, o = .del i ∧ l.length ≤ i) ∨ (o = .pop ∧ l = []) := by
  cases o with
  | add b =>
    obtain ⟨l', h, _⟩ := C18_add_exact l b
    simp [Op.run, h]
  | del i =>
    by_cases hi : i < l.length
    · obtain ⟨l', j, h, _⟩ := deleteTimer_spec l i hi
      simp only [Op.run, h]
      simp; omega
    · simp only [Op.run, deleteTimer, List.getElem?_eq_none (Nat.le_of_not_lt hi)]
      simp; omega
  | pop =>
    by_cases hi : 0 < l.length
    · obtain ⟨l', h, _⟩ := deleteTimer0_spec l hi
      simp only [Op.run, h]
      simp; intro e; subst e; simp at hi
    · have e : l = [] := List.eq_nil_of_length_eq_zero (by omega)
      subst e; simp [Op.run, deleteTimer0]

/-- The entries added by a history. -/
def added : List (Op τ) → List (Bucket τ)
  | [] => []
  | .add b :: os => b :: added os
  | _ :: os => added os

/-- How many removals a history makes. -/
def removals : List (Op τ) → Nat
  | [] => 0
  | .add _ :: os => removals os
  | _ :: os => removals os + 1

/-- Over any history, the entries that were in the heap or added are exactly those that are
still there plus one per removal: nothing is lost and nothing is duplicated. -/
theorem C18_history_conserves (ops : List (Op τ)) (l l' : List (Bucket τ))
    (h : runAll l ops = some l') :
    ∃ gone : List (Bucket τ), gone.length = removals ops ∧
      (gone ++ l').Perm (added ops ++ l) := by
  induction ops generalizing l with
  | nil => cases h; exact ⟨[], rfl, List.Perm.refl _⟩
  | cons o os ih =>
    rw [runAll] at h
    split at h
    · cases h
    · rename_i l1 h1
      obtain ⟨gone, g1, g2⟩ := ih l1 h
      cases o with
      | add b =>
        obtain ⟨m, m1, m2⟩ := C18_add_exact l b
        simp only [Op.run] at h1
        rw [m1] at h1; cases h1
        refine ⟨gone, g1, g2.trans ?_⟩
        simp only [added, List.cons_append]
        refine (m2.append_left _).trans List.perm_middle
      | del i =>
        have hi : i < l.length := by
          apply Decidable.byContradiction; intro hn
          have := (C18_panics_iff l (.del i)).mpr (Or.inl ⟨i, rfl, by omega⟩)
          rw [this] at h1; cases h1
        obtain ⟨m, j, m1, m2, _⟩ := deleteTimer_spec l i hi
        simp only [Op.run, m1, Option.map_some] at h1
        cases h1
        refine ⟨l[i] :: gone, by simp [removals, g1], ?_⟩
        simp only [added, List.cons_append]
        refine (g2.cons _).trans ?_
        exact List.perm_middle.symm.trans (m2.append_left _)
      | pop =>
        have hi : 0 < l.length := by
          apply Decidable.byContradiction; intro hn
          have := (C18_panics_iff l .pop).mpr
            (Or.inr ⟨rfl, List.eq_nil_of_length_eq_zero (by omega)⟩)
          rw [this] at h1; cases h1
        obtain ⟨m, m1, m2, _⟩ := deleteTimer0_spec l hi
        simp only [Op.run, m1] at h1
        cases h1
        refine ⟨l[0] :: gone, by simp [removals, g1], ?_⟩
        simp only [added, List.cons_append]
        refine (g2.cons _).trans ?_
        exact List.perm_middle.symm.trans (m2.append_left _)

example := C18_history_conserves [Op.add ⟨0, 50⟩, .add ⟨1, 40⟩, .add ⟨2, 60⟩, .add ⟨3, 30⟩, .del 2, .pop] ([] : List (Bucket Nat)) _
  (Option.some_get (show (runAll [] [Op.add (⟨0, 50⟩ : Bucket Nat), .add ⟨1, 40⟩, .add ⟨2, 60⟩, .add ⟨3, 30⟩, .del 2, .pop]).isSome by decide +kernel)).symm

/-! ## C19 -/

/-- Each operation keeps the heap order. -/
theorem C19_step_keeps_order (l l' : List (Bucket τ)) (o : Op τ) (hl : HeapOrder l)
    (h : o.run l = some l') : HeapOrder l' := by
  cases o with
  | add b =>
    obtain ⟨m, m1, _, m3⟩ := insert_spec l b
    simp only [Op.run, m1] at h; cases h; exact m3 hl
  | del i =>
    by_cases hi : i < l.length
    · obtain ⟨m, j, m1, _, _, _, m3⟩ := deleteTimer_spec l i hi
      simp only [Op.run, m1, Option.map_some] at h; cases h; exact m3 hl
    · have := (C18_panics_iff l (.del i)).mpr (Or.inl ⟨i, rfl, by omega⟩)
      rw [this] at h; cases h
  | pop =>
    by_cases hi : 0 < l.length
    · obtain ⟨m, m1, _, m3⟩ := deleteTimer0_spec l hi
      simp only [Op.run, m1] at h; cases h; exact m3 hl
    · have := (C18_panics_iff l .pop).mpr
        (Or.inr ⟨rfl, List.eq_nil_of_length_eq_zero (by omega)⟩)
      rw [this] at h; cases h

/-- After any history from the empty heap the entries are in 4-ary heap order. -/
theorem C19_history_order (ops : List (Op τ)) (l : List (Bucket τ))
    (h : runAll [] ops = some l) : HeapOrder l := by
  have gen : ∀ (ops : List (Op τ)) (l0 l : List (Bucket τ)), HeapOrder l0 →
      runAll l0 ops = some l → HeapOrder l := by
    intro ops
    induction ops with
    | nil => intro l0 l h0 h; cases h; exact h0
    | cons o os ih =>
      intro l0 l h0 h
      rw [runAll] at h
      split at h
      · cases h
      · rename_i l1 h1
        exact ih l1 l (C19_step_keeps_order l0 l1 o h0 h1) h
  exact gen ops [] l (fun k b p _ hb _ => by simp at hb) h

/-- In a heap-ordered list the first entry is the earliest of all. -/
theorem C19_first_is_earliest (l : List (Bucket τ)) (hl : HeapOrder l) (b : Bucket τ)
    (hb : l[0]? = some b) : Earliest b l := by
  intro c hc
  obtain ⟨k, hk, rfl⟩ := List.mem_iff_getElem.mp hc
  have := root_min l ((ord_iff l).mp hl) k hk
  rw [W_some hb, W_some (List.getElem?_eq_getElem hk)] at this
  exact this

/-- After any history from the empty heap the first entry has the earliest deadline. -/
theorem C19_history_first_is_earliest (ops : List (Op τ)) (l : List (Bucket τ)) (b : Bucket τ)
    (h : runAll [] ops = some l) (hb : l[0]? = some b) : Earliest b l :=
  C19_first_is_earliest l (C19_history_order ops l h) b hb

/-- Taking and removing the first entry until the heap is empty yields every stored entry, in
order of deadline. -/
theorem C19_drain_sorted (l : List (Bucket τ)) (hl : HeapOrder l) :
    ∃ s, drain l.length l = some s ∧ s.Perm l ∧ s.Pairwise (fun a b => a.when ≤ b.when) := by
  induction hn : l.length generalizing l with
  | zero =>
    have e : l = [] := List.eq_nil_of_length_eq_zero hn
    subst e
    exact ⟨[], rfl, List.Perm.refl _, List.Pairwise.nil⟩
  | succ n ih =>
    have hi : 0 < l.length := by omega
    obtain ⟨m, m1, m2, m3⟩ := deleteTimer0_spec l hi
    have hlen : m.length = n := by
      have := m2.length_eq; simp only [List.length_cons] at this; omega
    obtain ⟨s, s1, s2, s3⟩ := ih m (m3 hl) hlen
    refine ⟨l[0] :: s, ?_, (s2.cons _).trans m2, ?_⟩
    · rw [drain, List.getElem?_eq_getElem hi]
      simp only
      rw [m1]
      simp only
      rw [s1]; rfl
    · refine List.pairwise_cons.mpr ⟨fun c hc => ?_, s3⟩
      have hc' : c ∈ l := m2.mem_iff.mp (List.mem_cons_of_mem _ (s2.mem_iff.mp hc))
      exact C19_first_is_earliest l hl l[0] (List.getElem?_eq_getElem hi) c hc'

/-! ## The hypotheses are met -/

/-- A history that adds six entries, removes the one at index 2 and the first one. -/
example : ∃ l, runAll [] [Op.add ⟨0, 50⟩, .add ⟨1, 40⟩, .add ⟨2, 60⟩, .add ⟨3, 30⟩, .add ⟨4, 45⟩,
    .add ⟨5, 10⟩, .del 2, .pop] = some (l : List (Bucket Nat)) ∧ l.length = 4 ∧
    l[0]? = some ⟨3, 30⟩ ∧ HeapOrder l := by
  refine ⟨[⟨3, 30⟩, ⟨4, 45⟩, ⟨0, 50⟩, ⟨1, 40⟩], by decide +kernel, rfl, rfl, ?_⟩
  exact C19_history_order [Op.add ⟨0, 50⟩, .add ⟨1, 40⟩, .add ⟨2, 60⟩, .add ⟨3, 30⟩,
    .add ⟨4, 45⟩, .add ⟨5, 10⟩, .del 2, .pop] _ (by decide +kernel)

example : ∃ l' : List (Bucket Nat), (Op.del 1).run [⟨3, 30⟩, ⟨4, 45⟩, ⟨0, 50⟩, ⟨1, 40⟩] = some l' ∧ HeapOrder l' := by
  have h : HeapOrder [⟨3, 30⟩, ⟨4, 45⟩, ⟨0, 50⟩, (⟨1, 40⟩ : Bucket Nat)] := C19_history_order [Op.add ⟨0, 50⟩, .add ⟨1, 40⟩, .add ⟨2, 60⟩,
    .add ⟨3, 30⟩, .add ⟨4, 45⟩, .add ⟨5, 10⟩, .del 2, .pop] _ (by decide +kernel)
  have e := (Option.some_get (show ((Op.del 1).run [⟨3, 30⟩, ⟨4, 45⟩, ⟨0, 50⟩, (⟨1, 40⟩ : Bucket Nat)]).isSome by decide +kernel)).symm
  exact ⟨_, e, C19_step_keeps_order _ _ _ h e⟩
example : Earliest (⟨3, 30⟩ : Bucket Nat) [⟨3, 30⟩, ⟨4, 45⟩, ⟨0, 50⟩, ⟨1, 40⟩] :=
  C19_first_is_earliest _ (C19_history_order [Op.add ⟨0, 50⟩, .add ⟨1, 40⟩, .add ⟨2, 60⟩, .add ⟨3, 30⟩, .add ⟨4, 45⟩, .add ⟨5, 10⟩, .del 2, .pop]
    _ (by decide +kernel)) _ rfl
example := C19_history_first_is_earliest [Op.add ⟨0, 50⟩, .add ⟨1, 40⟩, .add ⟨2, 60⟩, .add ⟨3, 30⟩, .add ⟨4, 45⟩, .add ⟨5, 10⟩, .del 2, .pop]
  [⟨3, 30⟩, ⟨4, 45⟩, ⟨0, 50⟩, (⟨1, 40⟩ : Bucket Nat)] ⟨3, 30⟩ (by decide +kernel) rfl

end Memar.Timer
