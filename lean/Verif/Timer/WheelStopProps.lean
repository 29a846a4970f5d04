import Verif.Timer.WheelStop

/-!
# C149: stopping a timing wheel
-/

namespace Memar.Timer.WheelStop

/-- The goroutine is on its way out, or out. -/
def Ending (s : St) : Prop := s.pc = .idle ∨ s.pc = .received ∨ s.pc = .closing ∨ s.pc = .leaving

/-- An invariant of the steps is one of the schedules. -/
theorem run_inv (P : St → Prop) (Q : Ev → Prop) (hP : ∀ s e s' r, P s → Q e → step s e = .ok s' r → P s') (evs : List Ev)
    (hQ : ∀ e ∈ evs, Q e) : ∀ s s', P s → run s evs = some s' → P s' := by
  induction evs with
  | nil => intro s s' h hr; cases hr; exact h
  | cons e t ih =>
    intro s s' h hr
    simp only [run] at hr
    cases he : step s e with
    | blocked => rw [he] at hr; cases hr
    | panic => rw [he] at hr; cases hr
    | ok s1 r =>
      rw [he] at hr
      exact ih (fun e he => hQ e (by simp [he])) s1 s' (hP s e s1 r h (hQ e (by simp)) he) hr

/-- What a schedule can do to the parts of the wheel. -/
theorem step_cases (s : St) (e : Ev) (s' : St) (r : Option Bool) (h : step s e = .ok s' r) :
    (e = .start ∧ s.pc = .idle ∧ s' = { s with ticker := true, pc := .atSelect }) ∨
    (e = .fire ∧ s.ticker = true ∧ ((s.pc = .parked ∧ s' = { s with pc := .running, served := s.served + 1 }) ∨
      (s.pc ≠ .parked ∧ s' = { s with signal := true }))) ∨
    (e = .loop ∧ loopStep s = .ok s' r) ∨
    (e = .stop ∧ stopStep s = .ok s' r) := by
  cases e with
  | start =>
    left
    simp only [step, startStep] at h
    split at h
    · rename_i hp; cases h; exact ⟨rfl, hp, rfl⟩
    · cases h
  | fire =>
    right; left
    simp only [step, fireStep] at h
    split at h
    · rename_i ht
      split at h
      · rename_i hp; cases h; exact ⟨rfl, ht, .inl ⟨hp, rfl⟩⟩
      · rename_i hp; cases h; exact ⟨rfl, ht, .inr ⟨hp, rfl⟩⟩
    · cases h
  | loop => exact .inr (.inr (.inl ⟨rfl, h⟩))
  | stop => exact .inr (.inr (.inr ⟨rfl, h⟩))

theorem ending_step (n : Nat) (s : St) (e : Ev) (s' : St) (r : Option Bool) (h : Ending s ∧ s.served = n) (he : e ≠ .start)
    (hs : step s e = .ok s' r) : Ending s' ∧ s'.served = n := by
  obtain ⟨h, hn⟩ := h
  rcases step_cases s e s' r hs with ⟨h1, -⟩ | ⟨-, -, h1⟩ | ⟨-, h1⟩ | ⟨-, h1⟩
  · exact absurd h1 he
  · rcases h1 with ⟨hp, -⟩ | ⟨-, rfl⟩
    · unfold Ending at h; rw [hp] at h; simp at h
    · exact ⟨h, hn⟩
  · unfold loopStep at h1
    unfold Ending at h ⊢
    cases hp : s.pc <;> rw [hp] at h h1 <;> simp at h <;> (try (cases h1; done)) <;>
      (simp only [Out.ok.injEq] at h1; obtain ⟨rfl, -⟩ := h1; exact ⟨by simp, hn⟩)
  · unfold stopStep at h1
    cases hc : s.stop <;> rw [hc] at h1
    · dsimp only at h1
      split at h1
      · rename_i hp; unfold Ending at h; rw [hp] at h; simp at h
      · cases h1; exact ⟨h, hn⟩
    · cases h1
    · cases h1; exact ⟨h, hn⟩

/-- **C149**: stopping a wheel whose goroutine waits for the next tick says that it was running; and in every schedule that
follows, as long as it is not started again, no tick is served any more. -/
theorem C149_stop_waiting (s : St) (ho : s.stop = .opened) (hp : s.pc = .parked) :
    ∃ s', step s .stop = .ok s' (some false) ∧ s'.ticker = false ∧
      ∀ evs s'', (∀ e ∈ evs, e ≠ .start) → run s' evs = some s'' → s''.served = s.served ∧ s''.pc ≠ .parked ∧ s''.pc ≠ .running := by
  refine ⟨{ s with pc := .received, ticker := false }, ?_, rfl, ?_⟩
  · simp [step, stopStep, ho, hp]
  · intro evs s'' hq hr
    obtain ⟨h1, h2⟩ := run_inv (fun x => Ending x ∧ x.served = s.served) (fun e => e ≠ .start) (ending_step s.served) evs hq
      { s with pc := .received, ticker := false } s'' ⟨.inr (.inl rfl), rfl⟩ hr
    refine ⟨h2, ?_, ?_⟩ <;> (intro hc; unfold Ending at h1; rw [hc] at h1; simp at h1)

example := C149_stop_waiting ⟨.opened, .parked, true, false, 1⟩ rfl rfl

/-- **C149**: after that the goroutine ends by itself: three steps of its own later it is gone and the ticker is not set,
whatever happens in between except a new start. -/
theorem C149_stop_ends (s : St) (ho : s.stop = .opened) (hp : s.pc = .parked) :
    ∃ s', step s .stop = .ok s' (some false) ∧
      ∃ s'', run s' [.loop, .loop, .loop] = some s'' ∧ s''.pc = .idle ∧ s''.ticker = false ∧ s''.stop = .nil := by
  refine ⟨{ s with pc := .received, ticker := false }, ?_, ?_⟩
  · simp [step, stopStep, ho, hp]
  · exact ⟨{ s with pc := .idle, ticker := false, stop := .nil }, by simp [run, step, loopStep], rfl, rfl, rfl⟩

example : run init [.start, .loop, .fire, .loop, .loop] = some ⟨.opened, .parked, true, false, 1⟩ := by decide

/-- The goroutine has not been told to end. -/
def Serving (s : St) : Prop := s.pc = .atSelect ∨ s.pc = .parked ∨ s.pc = .running

theorem serving_step (s : St) (e : Ev) (s' : St) (r : Option Bool) (h : Serving s) (he : e ≠ .stop)
    (hs : step s e = .ok s' r) : Serving s' := by
  rcases step_cases s e s' r hs with ⟨-, h1, -⟩ | ⟨-, -, h1⟩ | ⟨-, h1⟩ | ⟨h1, -⟩
  · unfold Serving at h; rw [h1] at h; simp at h
  · rcases h1 with ⟨-, rfl⟩ | ⟨-, rfl⟩
    · exact .inr (.inr rfl)
    · exact h
  · unfold loopStep at h1
    unfold Serving at h ⊢
    cases hp : s.pc <;> rw [hp] at h h1 <;> simp at h <;> (try (cases h1; done))
    · dsimp only at h1
      split at h1 <;> (simp only [Out.ok.injEq] at h1; obtain ⟨rfl, -⟩ := h1; simp)
    · simp only [Out.ok.injEq] at h1; obtain ⟨rfl, -⟩ := h1; simp
  · exact absurd h1 he

/-- **C237** violated for a busy wheel: stopped while it serves a tick, or between two, a running wheel is said to have been
stopped already; its goroutine does not end, in any schedule without a further stop. -/
theorem C237_stop_busy_violated (s : St) (ho : s.stop = .opened) (hp : s.pc = .running ∨ s.pc = .atSelect) :
    ∃ s', step s .stop = .ok s' (some true) ∧
      ∀ evs s'', (∀ e ∈ evs, e ≠ .stop) → run s' evs = some s'' → s''.pc = .atSelect ∨ s''.pc = .parked ∨ s''.pc = .running := by
  refine ⟨{ s with ticker := false }, ?_, ?_⟩
  · rcases hp with hp | hp <;> simp [step, stopStep, ho, hp]
  · intro evs s'' hq hr
    refine run_inv Serving (fun e => e ≠ .stop) serving_step evs hq { s with ticker := false } s'' ?_ hr
    rcases hp with hp | hp
    · exact .inr (.inr hp)
    · exact .inl hp

example := C237_stop_busy_violated ⟨.opened, .running, true, true, 1⟩ rfl (.inl rfl)

/-- **C237** violated for a busy wheel with a signal waiting: it even serves one more tick after it was stopped. -/
theorem C237_stop_late_tick_violated (s : St) (ho : s.stop = .opened) (hp : s.pc = .running) (hg : s.signal = true) :
    ∃ s' s'', step s .stop = .ok s' (some true) ∧ run s' [.loop, .loop] = some s'' ∧ s''.served = s.served + 1 ∧
      s''.pc = .running := by
  refine ⟨{ s with ticker := false }, { s with ticker := false, pc := .running, signal := false, served := s.served + 1 }, ?_, ?_,
    rfl, rfl⟩
  · simp [step, stopStep, ho, hp]
  · simp [run, step, loopStep, hp, hg]

example : run init [.start, .fire, .loop, .fire] = some ⟨.opened, .running, true, true, 1⟩ := by decide

/-- **C237** (partial: for a wheel whose channel is still there; one started a second time has none): no matter when it was
stopped, no tick is served beyond the one that was waiting as long as the wheel is not started again.
Missing: that not even that tick is served (refuted: `C237_stop_late_tick_violated`), and wheels started again (refuted: `C237_restart_violated`). -/
theorem C237_stop_last_partial (s : St) (ho : s.stop = .opened) :
    ∃ s' r, step s .stop = .ok s' r ∧
      ∀ evs s'', (∀ e ∈ evs, e ≠ .start) → run s' evs = some s'' → s''.served ≤ s.served + (if s.signal then 1 else 0) := by
  have key : ∀ s0 : St, s0.ticker = false → ∀ evs s'', (∀ e ∈ evs, e ≠ .start) → run s0 evs = some s'' →
      s''.served ≤ s0.served + (if s0.signal then 1 else 0) := by
    intro s0 ht evs s'' hq hr
    have := run_inv (fun x => x.ticker = false ∧ x.served + (if x.signal then 1 else 0) ≤ s0.served + (if s0.signal then 1 else 0))
      (fun e => e ≠ .start) ?_ evs hq s0 s'' ⟨ht, Nat.le_refl _⟩ hr
    · omega
    · rintro x e x' r ⟨h1, h2⟩ he hs
      rcases step_cases x e x' r hs with ⟨hx, -⟩ | ⟨-, hx, -⟩ | ⟨-, hx⟩ | ⟨-, hx⟩
      · exact absurd hx he
      · rw [h1] at hx; cases hx
      · unfold loopStep at hx
        cases hp : x.pc <;> rw [hp] at hx <;> (try (cases hx; done))
        · dsimp only at hx
          split at hx
          · rename_i hsig
            simp only [Out.ok.injEq] at hx; obtain ⟨rfl, -⟩ := hx
            simp only [hsig, if_true] at h2
            exact ⟨h1, by simpa using h2⟩
          · simp only [Out.ok.injEq] at hx; obtain ⟨rfl, -⟩ := hx
            exact ⟨h1, h2⟩
        all_goals (simp only [Out.ok.injEq] at hx; obtain ⟨rfl, -⟩ := hx; exact ⟨by first | exact h1 | rfl, h2⟩)
      · unfold stopStep at hx
        cases hc : x.stop <;> rw [hc] at hx
        · dsimp only at hx
          split at hx <;> (cases hx; exact ⟨rfl, h2⟩)
        · cases hx
        · cases hx; exact ⟨h1, h2⟩
  by_cases hp : s.pc = .parked
  · exact ⟨{ s with pc := .received, ticker := false }, some false, by simp [step, stopStep, ho, hp],
      key { s with pc := .received, ticker := false } rfl⟩
  · exact ⟨{ s with ticker := false }, some true, by simp [step, stopStep, ho, hp], key { s with ticker := false } rfl⟩

example := C237_stop_last_partial ⟨.opened, .running, true, true, 1⟩ rfl

/-- **C237** violated for a wheel not yet started: `Stop` leaves no mark, so that it starts all the same. -/
theorem C237_stop_before_start_violated :
    step init .stop = .ok init (some true) ∧ run init [.stop, .start, .fire, .loop] = some ⟨.opened, .running, true, false, 1⟩ := by
  decide

/-- **C237** violated for a wheel started again: once its goroutine has ended the channel is gone, and a wheel started again
cannot be stopped any more: in every schedule, every `Stop` says that the wheel is stopped, and its ticker and its goroutine go
on. -/
theorem C237_restart_violated (s : St) (hn : s.stop = .nil) (hp : s.pc = .idle) :
    ∃ s', step s .start = .ok s' none ∧
      ∀ evs s'', run s' evs = some s'' → Serving s'' ∧ s''.ticker = true ∧ step s'' .stop = .ok s'' (some true) := by
  refine ⟨{ s with ticker := true, pc := .atSelect }, by simp [step, startStep, hp], ?_⟩
  intro evs s'' hr
  have inv : ∀ x e x' r, (Serving x ∧ x.ticker = true ∧ x.stop = .nil) → True → step x e = .ok x' r →
      (Serving x' ∧ x'.ticker = true ∧ x'.stop = .nil) := by
    rintro x e x' r ⟨h1, h2, h3⟩ - hs
    by_cases he : e = .stop
    · subst he
      simp only [step, stopStep, h3, Out.ok.injEq] at hs
      obtain ⟨rfl, -⟩ := hs
      exact ⟨h1, h2, h3⟩
    · refine ⟨serving_step x e x' r h1 he hs, ?_⟩
      rcases step_cases x e x' r hs with ⟨-, hx, -⟩ | ⟨-, -, hx⟩ | ⟨-, hx⟩ | ⟨hx, -⟩
      · unfold Serving at h1; rw [hx] at h1; simp at h1
      · rcases hx with ⟨-, rfl⟩ | ⟨-, rfl⟩ <;> exact ⟨h2, h3⟩
      · unfold loopStep at hx
        unfold Serving at h1
        cases hp : x.pc <;> rw [hp] at h1 hx <;> simp at h1 <;> (try (cases hx; done))
        · dsimp only at hx
          split at hx <;> (simp only [Out.ok.injEq] at hx; obtain ⟨rfl, -⟩ := hx; exact ⟨h2, h3⟩)
        · simp only [Out.ok.injEq] at hx; obtain ⟨rfl, -⟩ := hx; exact ⟨h2, h3⟩
      · exact absurd hx he
  obtain ⟨h1, h2, h3⟩ := run_inv (fun x => Serving x ∧ x.ticker = true ∧ x.stop = .nil) (fun _ => True) inv evs
    (fun _ _ => trivial) { s with ticker := true, pc := .atSelect } s'' ⟨.inl rfl, rfl, hn⟩ hr
  exact ⟨h1, h2, by simp [step, stopStep, h3]⟩

example : run init [.start, .loop, .stop, .loop, .loop, .loop] = some ⟨.nil, .idle, false, false, 0⟩ := by decide

/-- **C237** violated for two stops: a second `Stop` that meets the goroutine between closing the channel and clearing the field
panics. -/
theorem C237_stop_twice_violated (s : St) (ho : s.stop = .opened) (hp : s.pc = .parked) :
    ∃ s', run s [.stop, .loop] = some s' ∧ step s' .stop = .panic := by
  refine ⟨{ s with pc := .closing, ticker := false, stop := .closed }, ?_, by simp [step, stopStep]⟩
  simp [run, step, stopStep, loopStep, ho, hp]

example := C237_stop_twice_violated ⟨.opened, .parked, true, false, 1⟩ rfl rfl

/-- What a reachable state looks like: the channel is closed only in the one window, and gone only after it. -/
def Ok (s : St) : Prop :=
  (s.stop = .closed ↔ s.pc = .closing) ∧ (s.pc = .received → s.stop = .opened) ∧ (s.pc = .leaving → s.stop = .nil) ∧
    (s.pc = .parked → s.signal = false)

theorem ok_step (s : St) (e : Ev) (s' : St) (r : Option Bool) (h : Ok s) (hs : step s e = .ok s' r) : Ok s' := by
  obtain ⟨a, b, c, d⟩ := h
  rcases step_cases s e s' r hs with ⟨-, hx, rfl⟩ | ⟨-, -, hx⟩ | ⟨-, hx⟩ | ⟨-, hx⟩
  · rw [hx] at a; simp at a; refine ⟨?_, ?_, ?_, ?_⟩ <;> simp [a]
  · rcases hx with ⟨hp, rfl⟩ | ⟨hp, rfl⟩
    · rw [hp] at a; simp at a; refine ⟨?_, ?_, ?_, ?_⟩ <;> simp [a]
    · exact ⟨a, b, c, fun h => absurd h hp⟩
  · unfold loopStep at hx
    cases hp : s.pc <;> rw [hp] at hx a c <;> simp at a c <;> (try (cases hx; done))
    · dsimp only at hx
      split at hx
      · simp only [Out.ok.injEq] at hx; obtain ⟨rfl, -⟩ := hx; refine ⟨?_, ?_, ?_, ?_⟩ <;> simp [a]
      · rename_i hsig
        simp only [Out.ok.injEq] at hx; obtain ⟨rfl, -⟩ := hx; refine ⟨?_, ?_, ?_, ?_⟩ <;> simp [a]; simpa using hsig
    all_goals (simp only [Out.ok.injEq] at hx; obtain ⟨rfl, -⟩ := hx; refine ⟨?_, ?_, ?_, ?_⟩ <;> simp [a, c])
  · unfold stopStep at hx
    cases hc : s.stop <;> rw [hc] at hx a b c
    · dsimp only at hx
      split at hx
      · cases hx; refine ⟨?_, ?_, ?_, ?_⟩ <;> simp [hc]
      · cases hx; exact ⟨a, b, c, d⟩
    · cases hx
    · cases hx; rw [← hc] at a b; exact ⟨a, b, fun _ => hc, d⟩

theorem ok_init : Ok init := by unfold Ok init; decide

/-- **C149**: in every history `Stop` says that it stopped the wheel exactly when its goroutine was waiting for a tick, and panics
exactly in the window between the closing of the channel and the clearing of the field. -/
theorem C149_answer (evs : List Ev) (s : St) (hr : run init evs = some s) :
    ((∃ s', step s .stop = .ok s' (some false)) ↔ s.pc = .parked ∧ s.stop = .opened) ∧
      (step s .stop = .panic ↔ s.pc = .closing) ∧
      (s.pc ≠ .closing → ∃ s' b, step s .stop = .ok s' (some b)) := by
  obtain ⟨a, -, -, -⟩ := run_inv Ok (fun _ => True) (fun s e s' r h _ hs => ok_step s e s' r h hs) evs (fun _ _ => trivial) init s
    ok_init hr
  simp only [step, stopStep]
  cases hc : s.stop <;> rw [hc] at a <;> simp at a
  · by_cases hp : s.pc = .parked
    · simp [hp]
    · simp [hp, a]
  · simp [a]
  · simp [a]

example := C149_answer [.start, .loop, .fire, .loop, .loop] ⟨.opened, .parked, true, false, 1⟩ (by decide)

end Memar.Timer.WheelStop
