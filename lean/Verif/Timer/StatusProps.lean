import Verif.Timer.Status

/-!
# C22: the timer status protocol, for every interleaving
-/

namespace Memar.Timer.Protocol

/-! ## Specification -/

/-- A status a timer has only briefly (the comments of timer/status.go:66-98). -/
def Transient (s : Status) : Prop :=
  s = .running ∨ s = .removing ∨ s = .modifying ∨ s = .moving

/-- The status graph documented in timer/status.go:9-51, except that Stop goes to `deleted`
directly where the comment has it pass through `modifying`. -/
inductive Documented : Status → Status → Prop
  | start : Documented .unset .waiting
  | stop1 : Documented .waiting .deleted
  | stop2 : Documented .modifiedEarlier .deleted
  | stop3 : Documented .modifiedLater .deleted
  | reset1 : Documented .waiting .modifying
  | reset2 : Documented .modifiedEarlier .modifying
  | reset3 : Documented .modifiedLater .modifying
  | reset4 : Documented .unset .modifying
  | reset5 : Documented .removed .modifying
  | reset6 : Documented .deleted .modifying
  | reset7 : Documented .modifying .modifiedEarlier
  | reset8 : Documented .modifying .modifiedLater
  | reset9 : Documented .modifying .waiting
  | clean1 : Documented .deleted .removing
  | clean2 : Documented .removing .removed
  | clean3 : Documented .modifiedEarlier .moving
  | clean4 : Documented .modifiedLater .moving
  | clean5 : Documented .moving .waiting
  | run1 : Documented .waiting .running
  | run2 : Documented .running .unset
  | run3 : Documented .running .waiting

/-! ## The invariant -/

/-- The goroutine owns the status `modifying`. -/
def holds : UPc → Bool
  | .resetAdd => true
  | .resetFin _ => true
  | _ => false

/-- The goroutine is about to put the timer into the heap. -/
def pending : UPc → Bool
  | .startAdd => true
  | .resetAdd => true
  | _ => false

def agentOK (st : Status) (inHeap : Bool) : APc → Prop
  | .idle => st ≠ .running ∧ st ≠ .removing ∧ st ≠ .moving
  | .load => st ≠ .running ∧ st ≠ .removing ∧ st ≠ .moving ∧ inHeap = true
  | .casRun => st ≠ .running ∧ st ≠ .removing ∧ st ≠ .moving ∧ inHeap = true
  | .casRemove => st ≠ .running ∧ st ≠ .removing ∧ st ≠ .moving ∧ inHeap = true
  | .casMove old => st ≠ .running ∧ st ≠ .removing ∧ st ≠ .moving ∧ inHeap = true ∧
      (old = .modifiedEarlier ∨ old = .modifiedLater)
  | .removing1 => st = .removing ∧ inHeap = true
  | .removing2 => st = .removing ∧ inHeap = false
  | .running1 => st = .running ∧ inHeap = true
  | .runningPeriodic => st = .running ∧ inHeap = true
  | .running2 => st = .running ∧ inHeap = false
  | .moving1 => st = .moving ∧ inHeap = true
  | .moving2 => st = .moving ∧ inHeap = false
  | .moving3 => st = .moving ∧ inHeap = true
  | .fatal => False

def agentOut (a : APc) : Prop := a = .removing2 ∨ a = .running2 ∨ a = .moving2

structure Inv (σ : State) : Prop where
  hold : ∀ i, holds (σ.users i) = true → σ.st = .modifying
  holdU : ∀ i j, holds (σ.users i) = true → holds (σ.users j) = true → i = j
  held : σ.st = .modifying → ∃ i, holds (σ.users i) = true
  pend : ∀ i, pending (σ.users i) = true → σ.inHeap = false ∧ ¬ agentOut σ.agent
  pendU : ∀ i j, pending (σ.users i) = true → pending (σ.users j) = true → i = j
  out : σ.st = .unset ∨ σ.st = .removed → σ.inHeap = false ∧ ∀ i, pending (σ.users i) = false
  inn : σ.st ≠ .unset → σ.st ≠ .removed →
    σ.inHeap = true ∨ (∃ i, pending (σ.users i) = true) ∨ agentOut σ.agent
  ag : agentOK σ.st σ.inHeap σ.agent
  noRacy : ∀ i, σ.users i ≠ .ret .resetRacy
  stopOld : ∀ i old, σ.users i = .stopCas old →
    old = .waiting ∨ old = .modifiedEarlier ∨ old = .modifiedLater
  resetOld : ∀ i old, σ.users i = .resetCas old →
    old = .waiting ∨ old = .modifiedEarlier ∨ old = .modifiedLater ∨ old = .unset ∨
      old = .removed ∨ old = .deleted

theorem inv_init : Inv State.init := by
  constructor <;> simp [State.init, holds, pending, agentOK]

theorem upd_same (u i pc) : upd u i pc i = pc := by simp [upd]
theorem upd_ne (u i pc j) (h : j ≠ i) : upd u i pc j = u j := by simp [upd, h]

theorem agentOK_user {st st' : Status} {m : Bool} {a : APc} (h : agentOK st m a)
    (h1 : st ≠ .running) (h2 : st ≠ .removing) (h3 : st ≠ .moving)
    (k1 : st' ≠ .running) (k2 : st' ≠ .removing) (k3 : st' ≠ .moving) : agentOK st' m a := by
  cases a <;> simp_all [agentOK]

theorem agentOK_idle {st : Status} {m m' : Bool} {a : APc} (h : agentOK st m a)
    (ha : a = .idle) : agentOK st m' a := by
  subst ha; exact h

set_option maxHeartbeats 4000000 in
theorem inv_step {σ τ : State} (h : Inv σ) (hs : Step σ τ) : Inv τ := by
  obtain ⟨h1, h2, h3, h4, h5, h6, h7, h8, h9, h10, h11⟩ := h
  cases hs with
  | call i pc hr hpc =>
    have e1 : holds (σ.users i) = false := by
      revert hr; cases σ.users i <;> simp [resting, holds]
    have e2 : pending (σ.users i) = false := by
      revert hr; cases σ.users i <;> simp [resting, pending]
    have e3 : holds pc = false ∧ pending pc = false ∧ pc ≠ .ret .resetRacy ∧
        (∀ o, pc ≠ .stopCas o) ∧ (∀ o, pc ≠ .resetCas o) := by
      rcases hpc with h | h | h <;> subst h <;> simp [holds, pending]
    constructor <;> simp only [upd] <;> grind
  | user i s m pc hm =>
    have g1 := @agentOK_user σ.st
    have g2 := @agentOK_idle σ.st
    cases hu : σ.users i <;> simp only [hu, userSucc] at hm
    all_goals (try (exact absurd hm List.not_mem_nil))
    all_goals (repeat' split at hm)
    all_goals (simp only [List.mem_cons, List.not_mem_nil, or_false, Prod.mk.injEq] at hm)
    all_goals (first
      | (rcases hm with ⟨rfl, rfl, rfl⟩ | ⟨rfl, rfl, rfl⟩ <;>
         constructor <;> simp only [upd] <;> grind [holds, pending, agentOK, agentOut])
      | (rcases hm with ⟨rfl, rfl, rfl⟩
         constructor <;> simp only [upd] <;> grind [holds, pending, agentOK, agentOut]))
  | agent s m a hm =>
    cases ha : σ.agent <;> simp only [ha, agentSucc] at hm
    all_goals (try (exact absurd hm List.not_mem_nil))
    all_goals (repeat' split at hm)
    all_goals (simp only [List.mem_cons, List.not_mem_nil, or_false, Prod.mk.injEq] at hm)
    all_goals (first
      | (rcases hm with ⟨rfl, rfl, rfl⟩ | ⟨rfl, rfl, rfl⟩ <;>
         constructor <;> grind [holds, pending, agentOK, agentOut])
      | (rcases hm with ⟨rfl, rfl, rfl⟩
         constructor <;> grind [holds, pending, agentOK, agentOut]))

theorem inv_reachable {σ : State} (h : Reachable σ) : Inv σ := by
  induction h with
  | init => exact inv_init
  | step _ hs ih => exact inv_step ih hs

/-! ## C22 -/

/-- Whoever takes a timer into a transient status is the only one to take it out again: no
reachable interleaving makes Reset return the racy-access error, and the lock holder never meets
a status it answers with `log.Fatal`. -/
theorem C22_no_racy_access {σ : State} (h : Reachable σ) :
    (∀ i, σ.users i ≠ .ret .resetRacy) ∧ σ.agent ≠ .fatal := by
  have hi := inv_reachable h
  refine ⟨hi.noRacy, fun e => ?_⟩
  have := hi.ag
  rw [e] at this
  exact this

/-- When no call is in progress and nobody holds the lock, the timer is in no transient status,
and it is in the heap exactly if its status says so. -/
theorem C22_at_rest {σ : State} (h : Reachable σ) (ha : σ.agent = .idle)
    (hu : ∀ i, resting (σ.users i)) :
    ¬ Transient σ.st ∧ (σ.inHeap = true ↔ σ.st ≠ .unset ∧ σ.st ≠ .removed) := by
  have hi := inv_reachable h
  have hh : ∀ i, holds (σ.users i) = false := by
    intro i; have := hu i; revert this; cases σ.users i <;> simp [resting, holds]
  have hp : ∀ i, pending (σ.users i) = false := by
    intro i; have := hu i; revert this; cases σ.users i <;> simp [resting, pending]
  have hag := hi.ag
  rw [ha] at hag
  obtain ⟨a1, a2, a3⟩ := hag
  refine ⟨fun ht => ?_, fun hin => ?_, fun hn => ?_⟩
  · rcases ht with e | e | e | e
    · exact a1 e
    · exact a2 e
    · obtain ⟨i, hi'⟩ := hi.held e
      rw [hh i] at hi'; cases hi'
    · exact a3 e
  · constructor
    · intro e; have := (hi.out (Or.inl e)).1; rw [hin] at this; cases this
    · intro e; have := (hi.out (Or.inr e)).1; rw [hin] at this; cases this
  · rcases hi.inn hn.1 hn.2 with e | ⟨i, e⟩ | e
    · exact e
    · rw [hp i] at e; cases e
    · rw [ha] at e; rcases e with e | e | e <;> cases e

/-- Every change of the status, by whoever and whenever, is one of the documented ones. -/
theorem C22_documented_transitions {σ τ : State} (h : Reachable σ) (hs : Step σ τ) :
    τ.st = σ.st ∨ Documented σ.st τ.st := by
  have hi := inv_reachable h
  cases hs with
  | call i pc hr hpc => exact Or.inl rfl
  | user i s m pc hm =>
    have h10 := hi.stopOld i
    have h11 := hi.resetOld i
    show s = σ.st ∨ Documented σ.st s
    cases hu : σ.users i <;> simp only [hu, userSucc] at hm
    all_goals (try (exact absurd hm List.not_mem_nil))
    all_goals (repeat' split at hm)
    all_goals (simp only [List.mem_cons, List.not_mem_nil, or_false, Prod.mk.injEq] at hm)
    all_goals (first
      | (rcases hm with ⟨rfl, rfl, rfl⟩ | ⟨rfl, rfl, rfl⟩ <;> grind [Documented])
      | (rcases hm with ⟨rfl, rfl, rfl⟩; grind [Documented]))
  | agent s m a hm =>
    have hag := hi.ag
    show s = σ.st ∨ Documented σ.st s
    cases ha : σ.agent <;> simp only [ha, agentSucc, agentOK] at hm hag
    all_goals (try (exact absurd hm List.not_mem_nil))
    all_goals (repeat' split at hm)
    all_goals (simp only [List.mem_cons, List.not_mem_nil, or_false, Prod.mk.injEq] at hm)
    all_goals (first
      | (rcases hm with ⟨rfl, rfl, rfl⟩ | ⟨rfl, rfl, rfl⟩ <;> grind [Documented])
      | (rcases hm with ⟨rfl, rfl, rfl⟩; grind [Documented]))

/-- A call of Stop that changes the status takes a timer that is waiting or modified to
`deleted`; a call that reports success without changing it found the timer stopped; a call that
reports an error found it never started.  Nothing else can happen. -/
theorem C22_stop_exact {σ : State} (h : Reachable σ) (i : Nat)
    (hpc : σ.users i = .stopLoad ∨ ∃ old, σ.users i = .stopCas old)
    {s : Status} {m free : Bool} {r : Res}
    (hs : (s, m, .ret r) ∈ userSucc σ.st σ.inHeap free (σ.users i)) :
    (r = .done ∧ (σ.st = .waiting ∨ σ.st = .modifiedEarlier ∨ σ.st = .modifiedLater) ∧
      s = .deleted) ∨
    (r = .already ∧ (σ.st = .deleted ∨ σ.st = .removing ∨ σ.st = .removed) ∧ s = σ.st) ∨
    (r = .notInit ∧ σ.st = .unset ∧ s = .unset) := by
  have hi := inv_reachable h
  rcases hpc with hp | ⟨old, hp⟩
  · rw [hp] at hs
    simp only [userSucc] at hs
    split at hs <;>
      simp only [List.mem_cons, List.not_mem_nil, or_false, Prod.mk.injEq, UPc.ret.injEq,
        reduceCtorEq, and_false] at hs <;> grind
  · have h10 := hi.stopOld i old hp
    rw [hp] at hs
    simp only [userSucc] at hs
    split at hs <;>
      simp only [List.mem_cons, List.not_mem_nil, or_false, Prod.mk.injEq, UPc.ret.injEq,
        reduceCtorEq, and_false] at hs <;> grind

/-- A stopped timer is never run: no step takes a timer from `deleted` (or from what follows it)
to `running`; only Reset can make it wait again. -/
theorem C22_stopped_not_run {σ τ : State} (h : Reachable σ) (hs : Step σ τ)
    (hd : σ.st = .deleted ∨ σ.st = .removing ∨ σ.st = .removed) :
    τ.st = .deleted ∨ τ.st = .removing ∨ τ.st = .removed ∨ τ.st = .modifying := by
  rcases C22_documented_transitions h hs with e | e
  · rw [e]; grind
  · generalize τ.st = t at e ⊢
    rcases hd with hd | hd | hd <;> rw [hd] at e <;> cases e <;> simp

/-- Two goroutines race (one resets, one stops) and the lock holder runs in between: a reachable
state with a stopped, removed timer. -/
example : ∃ σ, Reachable σ ∧ σ.st = .removed ∧ σ.inHeap = false ∧ σ.users 1 = .ret .done := by
  have r0 := Reachable.init
  have r1 := r0.step (Step.call State.init 0 .resetLoad trivial (by simp))
  have r2 := r1.step (Step.user _ 0 .unset false (.resetCas .unset) (by decide))
  have r3 := r2.step (Step.user _ 0 .modifying false .resetAdd (by decide))
  have r4 := r3.step (Step.call _ 1 .stopLoad trivial (by simp))
  have r5 := r4.step (Step.user _ 1 .modifying false .stopLoad (by decide))
  have r6 := r5.step (Step.user _ 0 .modifying true (.resetFin true) (by decide))
  have r7 := r6.step (Step.user _ 0 .waiting true (.ret .done) (by decide))
  have r8 := r7.step (Step.user _ 1 .waiting true (.stopCas .waiting) (by decide))
  have r9 := r8.step (Step.agent _ .waiting true .load (by decide))
  have r10 := r9.step (Step.user _ 1 .deleted true (.ret .done) (by decide))
  have r11 := r10.step (Step.agent _ .deleted true .casRemove (by decide))
  have r12 := r11.step (Step.agent _ .removing true .removing1 (by decide))
  have r13 := r12.step (Step.agent _ .removing false .removing2 (by decide))
  have r14 := r13.step (Step.agent _ .removed false .idle (by decide))
  exact ⟨_, r14, rfl, rfl, rfl⟩

/-- A timer that was started by one goroutine, while a second one is about to stop it. -/
example : ∃ σ, Reachable σ ∧ (∀ i, σ.users i ≠ .ret .resetRacy) ∧ σ.st = .waiting ∧ σ.inHeap = true ∧ σ.users 1 = .stopCas .waiting ∧
    (.deleted, true, .ret .done) ∈ userSucc σ.st σ.inHeap true (σ.users 1) := by
  have r0 := Reachable.init
  have r1 := r0.step (Step.call State.init 0 .resetLoad trivial (by simp))
  have r2 := r1.step (Step.user _ 0 .unset false (.resetCas .unset) (by decide))
  have r3 := r2.step (Step.user _ 0 .modifying false .resetAdd (by decide))
  have r4 := r3.step (Step.user _ 0 .modifying true (.resetFin true) (by decide))
  have r5 := r4.step (Step.user _ 0 .waiting true (.ret .done) (by decide))
  have rest := C22_at_rest r5 rfl (by intro i; by_cases h : i = 0 <;> simp [upd, h, resting, State.init])
  have r6 := r5.step (Step.call _ 1 .stopLoad trivial (by simp))
  have step := C22_documented_transitions r6 (Step.user _ 1 .waiting true (.stopCas .waiting) (by decide))
  have r7 := r6.step (Step.user _ 1 .waiting true (.stopCas .waiting) (by decide))
  have stop := C22_stop_exact r7 1 (.inr ⟨.waiting, rfl⟩) (s := .deleted) (m := true) (free := true) (r := .done) (by decide)
  exact ⟨_, r7, (C22_no_racy_access r7).1, rfl, rfl, rfl, by decide⟩

end Memar.Timer.Protocol
