import Verif.Timer.StatusProps

/-!
# C22: Start and Reset of a timer nobody else touches
-/

namespace Memar.Timer.Protocol

/-- What one goroutine reaches when nobody else touches the timer and the lock is free. -/
inductive Alone (a : Status × Bool × UPc) : Status × Bool × UPc → Prop
  | refl : Alone a a
  | step (st : Status) (inHeap : Bool) (pc : UPc) (b : Status × Bool × UPc)
      (before : Alone a (st, inHeap, pc)) (one : b ∈ userSucc st inHeap true pc) : Alone a b

/-- Start alone: a timer at rest is started, it is in the heap then and waits; any other timer is reported as already
started and stays as it is. -/
theorem C22_start_alone (st0 : Status) (h0 : Bool) :
    (st0 = .unset → Alone (st0, h0, .startLoad) (.waiting, true, .ret .done)) ∧
    (st0 ≠ .unset → ∀ st h r, Alone (st0, h0, .startLoad) (st, h, .ret r) → r = .alreadyStarted ∧ st = st0 ∧ h = h0) := by
  constructor
  · intro e
    subst e
    have a1 := Alone.refl (a := (Status.unset, h0, UPc.startLoad))
    have a2 := Alone.step _ _ _ (.unset, h0, .startCas) a1 (by simp [userSucc])
    have a3 := Alone.step _ _ _ (.waiting, h0, .startAdd) a2 (by simp [userSucc])
    exact Alone.step _ _ _ (.waiting, true, .ret .done) a3 (by simp [userSucc])
  · intro hne
    have key : ∀ b, Alone (st0, h0, .startLoad) b →
        b = (st0, h0, .startLoad) ∨ b = (st0, h0, .ret .alreadyStarted) := by
      intro b hb
      induction hb with
      | refl => exact Or.inl rfl
      | step st inHeap pc b _ one ih =>
        rcases ih with e | e
        · cases e
          simp only [userSucc, if_neg hne, List.mem_singleton] at one
          exact Or.inr one
        · cases e; simp [userSucc] at one
    intro st h r hr
    rcases key _ hr with e | e
    · cases e
    · cases e; exact ⟨rfl, rfl, rfl⟩

/-- What Reset alone may reach from the status `st0`. -/
def resetReach (st0 : Status) (h0 : Bool) (st : Status) (h : Bool) : UPc → Prop
  | .resetLoad => st = st0 ∧ h = h0
  | .resetCas old => st = st0 ∧ h = h0 ∧ old = st0
  | .resetAdd => st = .modifying ∧ h = h0 ∧ (st0 = .unset ∨ st0 = .removed)
  | .resetFin b => st = .modifying ∧ (b = true ↔ (st0 = .unset ∨ st0 = .removed)) ∧ (b = true → h = true) ∧
      (b = false → h = h0)
  | .ret r => r = .done ∧
      (st0 = .unset ∨ st0 = .removed → st = .waiting ∧ h = true) ∧
      (¬ (st0 = .unset ∨ st0 = .removed) → (st = .modifiedLater ∨ st = .modifiedEarlier) ∧ h = h0)
  | _ => False

/-- Reset alone succeeds on every timer that is in no transient status: one that is not in the heap is put there and
waits, one that is in the heap stays there and is marked as modified. -/
theorem C22_reset_alone (st0 : Status) (h0 : Bool) (hn : ¬ Transient st0) :
    (∃ st h, Alone (st0, h0, .resetLoad) (st, h, .ret .done)) ∧
    ∀ st h r, Alone (st0, h0, .resetLoad) (st, h, .ret r) → r = .done ∧
      (st0 = .unset ∨ st0 = .removed → st = .waiting ∧ h = true) ∧
      (¬ (st0 = .unset ∨ st0 = .removed) → (st = .modifiedLater ∨ st = .modifiedEarlier) ∧ h = h0) := by
  constructor
  · have a1 := Alone.refl (a := (st0, h0, UPc.resetLoad))
    have a2 := Alone.step _ _ _ (st0, h0, .resetCas st0) a1 (by
      cases st0 <;> simp [userSucc, Transient] at hn ⊢)
    by_cases hc : st0 = .unset ∨ st0 = .removed
    · have a3 := Alone.step _ _ _ (.modifying, h0, .resetAdd) a2 (by simp [userSucc, hc])
      have a4 := Alone.step _ _ _ (.modifying, true, .resetFin true) a3 (by simp [userSucc])
      exact ⟨_, _, Alone.step _ _ _ (.waiting, true, .ret .done) a4 (by simp [userSucc])⟩
    · have a3 := Alone.step _ _ _ (.modifying, h0, .resetFin false) a2 (by simp [userSucc, hc])
      exact ⟨_, _, Alone.step _ _ _ (.modifiedLater, h0, .ret .done) a3 (by simp [userSucc])⟩
  · have key : ∀ b, Alone (st0, h0, .resetLoad) b → resetReach st0 h0 b.1 b.2.1 b.2.2 := by
      intro b hb
      induction hb with
      | refl => exact ⟨rfl, rfl⟩
      | step st inHeap pc b _ one ih =>
        simp only at ih
        cases pc <;> simp only [resetReach, userSucc] at ih one
        all_goals (try (exact absurd ih id))
        all_goals (try (exact absurd one List.not_mem_nil))
        · obtain ⟨rfl, rfl⟩ := ih
          cases st <;> simp [Transient] at hn <;> simp only [List.mem_singleton] at one <;> subst one <;>
            exact ⟨rfl, rfl, rfl⟩
        · obtain ⟨rfl, rfl, rfl⟩ := ih
          rw [if_pos rfl] at one
          split at one
          · rename_i hc
            rw [List.mem_singleton] at one; subst one
            exact ⟨rfl, rfl, hc⟩
          · rename_i hc
            rw [List.mem_singleton] at one; subst one
            exact ⟨rfl, by simp [hc], by simp, fun _ => rfl⟩
        · obtain ⟨rfl, rfl, hc⟩ := ih
          rw [if_pos trivial, List.mem_singleton] at one; subst one
          exact ⟨rfl, by simp [hc], fun _ => rfl, by simp⟩
        · obtain ⟨rfl, hb, h1, h2⟩ := ih
          rw [if_pos rfl] at one
          split at one
          · rename_i hw
            rw [List.mem_singleton] at one; subst one
            exact ⟨rfl, fun _ => ⟨rfl, h1 hw⟩, fun hc => absurd (hb.mp hw) hc⟩
          · rename_i hw
            have hf : _ = false := Bool.eq_false_iff.mpr hw
            simp only [List.mem_cons, List.not_mem_nil, or_false] at one
            have hnc : ¬ (st0 = .unset ∨ st0 = .removed) := fun hc => hw (hb.mpr hc)
            rcases one with e | e <;> subst e
            · exact ⟨rfl, fun hc => absurd hc hnc, fun _ => ⟨Or.inl rfl, h2 hf⟩⟩
            · exact ⟨rfl, fun hc => absurd hc hnc, fun _ => ⟨Or.inr rfl, h2 hf⟩⟩
    intro st h r hr
    exact key _ hr

example := C22_reset_alone .deleted true (by simp [Transient])

end Memar.Timer.Protocol
