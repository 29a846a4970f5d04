import Verif.Metric.Model

namespace Memar.Metric
open Memar

variable {κ ε : Type} [DecidableEq κ]

/-- The sum of the additions to `k`. -/
def total (k : κ) : List (Atom κ) → BitVec 64
  | [] => 0
  | a :: t => (if k = a.1 then a.2 else 0) + total k t

theorem total_append (k : κ) (a b : List (Atom κ)) : total k (a ++ b) = total k a + total k b := by
  induction a with
  | nil => simp [total]
  | cons x a ih => simp [total, ih, BitVec.add_assoc]

/-- The sum over all goroutines. -/
def total2 (k : κ) : List (List (Atom κ)) → BitVec 64
  | [] => 0
  | t :: ts => total k t + total2 k ts

theorem total2_append (k : κ) (a b : List (List (Atom κ))) :
    total2 k (a ++ b) = total2 k a + total2 k b := by
  induction a with
  | nil => simp [total2]
  | cons x a ih => simp [total2, ih, BitVec.add_assoc]

theorem total2_flatten (k : κ) (a : List (List (Atom κ))) : total2 k a = total k a.flatten := by
  induction a with
  | nil => rfl
  | cons x a ih => simp [total2, total_append, ih]

theorem add_eq (s : κ → BitVec 64) (a : Atom κ) (k : κ) :
    add s a k = s k + if k = a.1 then a.2 else 0 := by
  unfold add; split <;> simp

theorem step_total {a b : Config κ} (h : Step a b) (k : κ) :
    a.counters k + total2 k a.todo = b.counters k + total2 k b.todo := by
  cases h with
  | go s l r x rest =>
    simp only [total2_append, total2, total, add_eq]
    ac_rfl

theorem steps_total {a b : Config κ} (h : Steps a b) (k : κ) :
    a.counters k + total2 k a.todo = b.counters k + total2 k b.todo := by
  induction h with
  | refl => rfl
  | tail _ hs ih => rw [ih, step_total hs]

theorem done_total {c : Config κ} (h : c.Done) (k : κ) : total2 k c.todo = 0 := by
  obtain ⟨s, ts⟩ := c
  show total2 k ts = 0
  replace h : ∀ t ∈ ts, t = [] := h
  clear s
  induction ts with
  | nil => rfl
  | cons t ts ih =>
    rw [total2, ih (fun x hx => h x (List.mem_cons_of_mem _ hx)), h t (List.mem_cons_self)]
    simp [total]

theorem foldl_total (s : κ → BitVec 64) (l : List (Atom κ)) (k : κ) :
    l.foldl add s k = s k + total k l := by
  induction l generalizing s with
  | nil => simp [total]
  | cons a l ih => rw [List.foldl_cons, ih, add_eq, total]; ac_rfl

theorem runSeq_total (atoms : ε → List (Atom κ)) (h : List ε) (k : κ) :
    runSeq atoms h k = total k (h.flatMap atoms) := by
  rw [runSeq, foldl_total]; simp

theorem total_perm (k : κ) {a b : List (Atom κ)} (h : a.Perm b) : total k a = total k b := by
  induction h with
  | nil => rfl
  | cons x _ ih => rw [total, total, ih]
  | swap x y l => simp only [total]; ac_rfl
  | trans _ _ i1 i2 => rw [i1, i2]

/-- All goroutines' additions can be done, whatever their number. -/
theorem can_finish (c : Config κ) : ∃ d, Steps c d ∧ d.Done := by
  obtain ⟨s, ts⟩ := c
  suffices h : ∀ (n : Nat) (s : κ → BitVec 64) (ts : List (List (Atom κ))), ts.flatten.length = n →
      ∀ c0, Steps c0 ⟨s, ts⟩ → ∃ d, Steps c0 d ∧ d.Done from h _ s ts rfl _ (.refl _)
  intro n
  induction n with
  | zero =>
    intro s ts hl c0 h0
    refine ⟨_, h0, ?_⟩
    intro t ht
    have : ts.flatten = [] := List.length_eq_zero_iff.1 hl
    exact List.flatten_eq_nil_iff.1 this t ht
  | succ n ih =>
    intro s ts hl c0 h0
    have hne : ∃ t ∈ ts, t ≠ [] := by
      apply Decidable.byContradiction
      intro hn
      have : ts.flatten = [] := List.flatten_eq_nil_iff.2 fun t ht =>
        Decidable.byContradiction fun e => hn ⟨t, ht, e⟩
      rw [this] at hl; simp at hl
    obtain ⟨t, ht, hne⟩ := hne
    obtain ⟨l, r, rfl⟩ := List.append_of_mem ht
    cases t with
    | nil => exact absurd rfl hne
    | cons a rest =>
      refine ih (add s a) (l ++ rest :: r) ?_ c0 (.tail h0 (.go s l r a rest))
      simp at hl ⊢; omega

end Memar.Metric
