import Verif.Timer.TimingProps

/-!
# What Start, Stop, Reset and Tick answer, C307

Programs of calls with their answers. A timer is armed (`Verif/Timer/TimingSpec.lean`), or it was stopped since it was last armed, or neither: it was never armed
or it has run.
-/

namespace Memar.Timer.Queue

open Memar.Timer

/-! ## Specification -/

/-- Specification: calls one after the other, as long as each returns, with what each of them answered. -/
def runAnswers : List Call → Tg → Out (Tg × List (Call × Option Err))
  | [], tg => .ok (tg, [])
  | c :: cs, tg => (c.run tg).bind fun r => (runAnswers cs r.1).bind fun q => .ok (q.1, (c, r.2) :: q.2)

/-- Specification: whether, of the calls on timer `t` that were answered without an error, the last was `Stop`. -/
def lastWasStop (t : Nat) : Bool → List (Call × Option Err) → Bool
  | b, [] => b
  | b, (.start u _ _, r) :: l => lastWasStop t (if u = t ∧ r = none then false else b) l
  | b, (.stop u, r) :: l => lastWasStop t (if u = t ∧ r = none then true else b) l
  | b, (.reset u _ _, r) :: l => lastWasStop t (if u = t ∧ r = none then false else b) l
  | b, (.tick u _ _ _, r) :: l => lastWasStop t (if u = t ∧ r = none then false else b) l
  | b, (.check _ _, _) :: l => lastWasStop t b l

/-! ## Proofs -/

/-- Whether the timer was stopped. -/
def halted (m : Tm) : Bool := decide (m.status = .deleted ∨ m.status = .removed)

theorem cleaned_halted {tg tg' : Tg} (h : Cleaned tg tg') (u : Nat) : halted (tg'.tm u) = halted (tg.tm u) := by
  rcases h.1 u with e | ⟨_, e1, e2⟩
  · rw [e]
  · rw [e2]; simp [halted, e1]

theorem runTimer_halted {tg tg' : Tg} {now w : Int} (g : Good none tg) (hne : tg.heap.length ≠ 0)
    (h : runTimer tg.heap.length tg now = .ok (tg', w)) (u : Nat) : halted (tg'.tm u) = halted (tg.tm u) := by
  obtain ⟨r1, r2⟩ := runTimer_spec _ tg now g (Nat.le_refl _) hne
  rw [h] at r1
  cases r1 with
  | later _ b hc hb hs hw => exact cleaned_halted hc u
  | once tg1 b h' hc hb hs hw hp hh =>
    rw [← cleaned_halted hc u]
    show halted ((popped tg1 b h' .unset tg1.deletedCount).tm u) = _
    rw [popped_tm]
    by_cases e : u = b.timer
    · subst e; simp [halted, hs]
    · rw [if_neg e]
  | periodic tg1 b hc hb hs hw hp =>
    rw [← cleaned_halted hc u]
    show halted ((tg1.setWhen b.timer _).tm u) = _
    rw [setWhen_tm]
    by_cases e : u = b.timer
    · subst e; simp [halted]
    · rw [if_neg e]
  | empty _ hc he hd => exact cleaned_halted hc u

theorem runAll_halted (fuel : Nat) {tg tg' : Tg} {now nw : Int} {ran : Bool} (g : Good none tg)
    (h : runAll fuel tg now = .ok (tg', nw, ran)) (u : Nat) : halted (tg'.tm u) = halted (tg.tm u) := by
  induction fuel generalizing tg tg' nw ran with
  | zero =>
    rw [runAll] at h
    split at h
    · rename_i hl
      cases hr : runTimer tg.heap.length tg now with
      | ok r =>
        obtain ⟨tg1, tw⟩ := r
        have q := runTimer_halted g (by omega) hr u
        rw [hr] at h
        simp only at h
        split at h
        · cases h; exact q
        · cases h
      | _ => rw [hr] at h; cases h
    · cases h; rfl
  | succ fuel ih =>
    rw [runAll] at h
    split at h
    · rename_i hl
      cases hr : runTimer tg.heap.length tg now with
      | ok r =>
        obtain ⟨tg1, tw⟩ := r
        have q := runTimer_halted g (by omega) hr u
        have q1 := (runTimer_armed g (by omega) hr).1
        rw [hr] at h
        simp only at h
        split at h
        · cases h; exact q
        · cases hr2 : runAll fuel tg1 now with
          | ok r2 =>
            obtain ⟨tg2, nw2, ran2⟩ := r2
            rw [hr2] at h
            simp only [Out.bind, Out.ok.injEq, Prod.mk.injEq] at h
            rw [← h.1, ih q1 hr2, q]
          | _ => rw [hr2] at h; cases h
      | _ => rw [hr] at h; cases h
    · cases h; rfl

theorem clear_halted {tg tg' : Tg} (g : Good none tg) (h : clearDeleted tg = .ok tg') (u : Nat) : halted (tg'.tm u) = halted (tg.tm u) := by
  obtain ⟨tg2, r1, r2, _, r4, r5, _⟩ := clearDeleted_spec g
  rw [r1] at h; cases h
  rw [r4]
  split
  · unfold halted; rw [sweptTm_status]
    cases (tg.tm u).status <;> simp
  · rfl

theorem check_halted {fuel : Nat} {tg tg' : Tg} {now nw : Int} {ran : Bool} (g : Good none tg)
    (h : checkTimers fuel tg now = .ok (tg', nw, ran)) (u : Nat) : halted (tg'.tm u) = halted (tg.tm u) := by
  unfold checkTimers at h
  split at h
  · cases h; rfl
  · split at h
    · cases h; rfl
    · have key : ∀ tg2 nw2 ran2, (if tg.heap.length > 0 then
          (adjustTimers tg now).bind fun tg1 => runAll fuel tg1 now
          else Out.ok (tg, (0 : Int), false)) = .ok (tg2, nw2, ran2) → Good none tg2 ∧ halted (tg2.tm u) = halted (tg.tm u) := by
        intro tg2 nw2 ran2 hh
        split at hh
        · rcases adjust_spec g now with ⟨a1, _⟩ | ⟨a1, _⟩ | ⟨a1, _⟩
          · rw [a1] at hh; exact ⟨(runAll_armed fuel g hh).1, runAll_halted fuel g hh u⟩
          · rw [a1] at hh
            exact ⟨(runAll_armed (tg := { tg with modifiedEarliest := 0 }) fuel (good_me g 0) hh).1,
              runAll_halted (tg := { tg with modifiedEarliest := 0 }) fuel (good_me g 0) hh u⟩
          · rw [a1] at hh; cases hh
        · cases hh; exact ⟨g, rfl⟩
      cases hx : (if tg.heap.length > 0 then
          (adjustTimers tg now).bind fun tg1 => runAll fuel tg1 now
          else Out.ok (tg, (0 : Int), false)) with
      | ok r =>
        obtain ⟨tg2, nw2, ran2⟩ := r
        obtain ⟨k1, k2⟩ := key _ _ _ hx
        rw [hx] at h
        simp only [Out.bind] at h
        split at h
        · cases hc : clearDeleted tg2 with
          | ok tg3 =>
            rw [hc] at h
            cases h
            rw [clear_halted k1 hc u, k2]
          | _ => rw [hc] at h; cases h
        · cases h; exact k2
      | _ => rw [hx] at h; cases h

theorem start_halted {tg tg' : Tg} (g : Good none tg) {t : Nat} {d now : Int} {r : Option Err}
    (h : start tg t d now = .ok (tg', r)) (u : Nat) : halted (tg'.tm u) = if t = u ∧ r = none then false else halted (tg.tm u) := by
  rcases start_ok g h with ⟨h1, h2⟩ | ⟨h1, _, hs, _, tg1, hp, _, hc, ht, _, he⟩
  · rw [h2, if_neg (fun hh => h1 hh.2)]
  · rw [he]
    by_cases e : u = t
    · subst e; rw [added_self, ht]; simp [halted, h1]
    · rw [added_other e, cleaned_halted hc u, if_neg (fun hh => e hh.1.symm), start_pre_tm, if_neg e]

theorem reset_halted {tg tg' : Tg} (g : Good none tg) {t : Nat} {d now : Int} {r : Option Err}
    (h : reset tg t d now = .ok (tg', r)) (u : Nat) : halted (tg'.tm u) = if t = u ∧ r = none then false else halted (tg.tm u) := by
  rcases reset_ok g h with ⟨h1, h2⟩ | ⟨h1, _, _, _, _, _, ho, _, _, hs⟩ | ⟨h1, _, _, _, tg1, hp, _, hc, ht, _, he⟩
  · rw [h2, if_neg (fun hh => h1 hh.2)]
  · by_cases e : u = t
    · subst e
      rw [if_pos ⟨rfl, h1⟩]
      rcases hs with ⟨hs, _⟩ | ⟨hs, _⟩ <;> simp [halted, hs]
    · rw [ho u e, if_neg (fun hh => e hh.1.symm)]
  · rw [he]
    by_cases e : u = t
    · subst e; rw [setStatus_tm]; simp [halted, h1]
    · rw [setStatus_tm, if_neg e, added_other e, cleaned_halted hc u, resetPre_tm, if_neg e, if_neg (fun hh => e hh.1.symm)]

theorem stop_halted {tg tg' : Tg} (g : Good none tg) {t : Nat} {r : Option Err}
    (h : stop tg t = .ok (tg', r)) (u : Nat) : halted (tg'.tm u) = if t = u ∧ r = none then true else halted (tg.tm u) := by
  have hr := g.rest t (by simp)
  unfold stop at h
  rcases hr with hs | hs | hs | hs | hs | hs <;> rw [hs] at h <;> simp only at h
  case inl => cases h; simp
  all_goals first
    | (split at h
       · cases h
         by_cases e : u = t
         · subst e; simp [halted, setStatus_tm]
         · rw [show ({ tg.setStatus t .deleted with deletedCount := (tg.setStatus t .deleted).deletedCount + 1 } : Tg).tm u = (tg.setStatus t .deleted).tm u from rfl,
             setStatus_tm, if_neg e, if_neg (fun hh => e hh.1.symm)]
       · cases h)
    | (cases h
       by_cases e : t = u
       · subst e; simp [halted, hs]
       · rw [if_neg (fun hh => e hh.1)])

theorem call_halted {tg tg' : Tg} (g : Good none tg) {c : Call} {r : Option Err} (h : c.run tg = .ok (tg', r)) (u : Nat) :
    halted (tg'.tm u) = lastWasStop u (halted (tg.tm u)) [(c, r)] := by
  cases c with
  | start t d now => exact start_halted g h u
  | stop t => exact stop_halted g h u
  | reset t d now => exact reset_halted g h u
  | tick t f i now =>
    show _ = if t = u ∧ r = none then false else halted (tg.tm u)
    unfold Call.run tick at h
    simp only at h
    split at h
    · cases h; simp
    · rename_i hd
      rw [start_halted (setPeriod_good g t (by omega)) h u]
      have hh : halted ((tg.setPeriod t i).tm u) = halted (tg.tm u) := by
        rw [setPeriod_tm]; by_cases e : u = t
        · subst e; simp [halted]
        · rw [if_neg e]
      rw [hh]
  | check fuel now =>
    show _ = halted (tg.tm u)
    unfold Call.run at h
    simp only at h
    cases hc : checkTimers fuel tg now with
    | ok q =>
      obtain ⟨tg1, nw, ran⟩ := q
      rw [hc] at h; cases h
      exact check_halted g hc u
    | _ => rw [hc] at h; cases h

theorem last_cons (u : Nat) (b : Bool) (x : Call × Option Err) (l : List (Call × Option Err)) :
    lastWasStop u b (x :: l) = lastWasStop u (lastWasStop u b [x]) l := by
  obtain ⟨c, r⟩ := x
  cases c <;> rfl

theorem run_halted : ∀ (cs : List Call) (tg tg' : Tg) (l : List (Call × Option Err)), Good none tg → runAnswers cs tg = .ok (tg', l) →
    Good none tg' ∧ ∀ u, halted (tg'.tm u) = lastWasStop u (halted (tg.tm u)) l := by
  intro cs
  induction cs with
  | nil => intro tg tg' l g h; cases h; exact ⟨g, fun _ => rfl⟩
  | cons c cs ih =>
    intro tg tg' l g h
    rw [runAnswers] at h
    cases hc : c.run tg with
    | ok r =>
      obtain ⟨tg1, e⟩ := r
      rw [hc] at h
      simp only [Out.bind] at h
      cases hr : runAnswers cs tg1 with
      | ok q =>
        obtain ⟨tg2, l2⟩ := q
        rw [hr] at h
        cases h
        obtain ⟨p1, p2⟩ := ih tg1 tg2 l2 (call_good g hc) hr
        refine ⟨p1, fun u => ?_⟩
        rw [p2 u, last_cons, call_halted g hc u]
      | _ => rw [hr] at h; cases h
    | _ => rw [hc] at h; cases h

/-- The status of a timer of a consistent queue, seen from outside. -/
theorem unset_iff {tg : Tg} (g : Good none tg) (t : Nat) :
    (tg.tm t).status = .unset ↔ (armed tg).due t = none ∧ halted (tg.tm t) = false := by
  have hr := g.rest t (by simp)
  rw [armed_eq]
  rcases hr with hs | hs | hs | hs | hs | hs <;> simp [dueOf, halted, hs]

theorem start_answer {tg tg' : Tg} (g : Good none tg) {t : Nat} {d now : Int} {r : Option Err} (h : start tg t d now = .ok (tg', r)) :
    r = if d < 1 then some .negativeDuration
      else if (armed tg).due t ≠ none ∨ halted (tg.tm t) = true then some .alreadyStarted else none := by
  unfold start at h
  split at h
  · rename_i hd; cases h; rw [if_pos hd]
  · rename_i hd
    rw [if_neg hd]
    split at h
    · rename_i hs
      cases h
      have hu : (tg.tm t).status ≠ .unset := by
        rcases hs with hs | hs
        · exact hs
        · have := (g.inn t (by simp)).mp ((g.timing t (by simp)).mp hs)
          exact this.1
      rw [if_pos]
      rw [ne_eq, unset_iff g, Decidable.not_and_iff_or_not] at hu
      rcases hu with hu | hu
      · exact Or.inl hu
      · exact Or.inr (by simpa using hu)
    · rename_i hs
      have hu : (tg.tm t).status = .unset := by
        refine Decidable.byContradiction fun hne => hs (Or.inl hne)
      have := (unset_iff g t).mp hu
      rw [if_neg (by rw [this.1, this.2]; simp)]
      cases ha : addTimer (((tg.setStatus t .waiting).setWhen t (now + d)).setTiming t true) t with
      | ok a => rw [ha] at h; cases h; rfl
      | _ => rw [ha] at h; cases h

theorem reset_none {tg tg' : Tg} (g : Good none tg) {t : Nat} {d now : Int} {r : Option Err} (hr : reset tg t d now = .ok (tg', r)) (hd : 1 ≤ d) : r = none := by
  unfold reset at hr
  rw [if_neg (by omega)] at hr
  have ht : ∀ tg b, resetTail tg t d now b = .ok (tg', r) → r = none := by
    intro tg b hq
    unfold resetTail at hq
    simp only at hq
    split at hq
    · cases ha : addTimer ((if ((tg.setWhen t (now + d)).tm t).period ≠ 0 then (tg.setWhen t (now + d)).setPeriod t d else tg.setWhen t (now + d)).setTiming t true) t with
      | ok a => rw [ha] at hq; cases hq; rfl
      | _ => rw [ha] at hq; cases hq
    · generalize (if ((tg.setWhen t (now + d)).tm t).period ≠ 0 then (tg.setWhen t (now + d)).setPeriod t d else tg.setWhen t (now + d)) = z at hq
      split at hq
      · split at hq
        · cases hq; rfl
        · cases hq
      · cases hq; rfl
  have hrest := g.rest t (by simp)
  rcases hrest with hs | hs | hs | hs | hs | hs <;> simp only [hs] at hr
  · exact ht _ _ hr
  · exact ht _ _ hr
  · split at hr
    · exact ht _ _ hr
    · cases hr
  · exact ht _ _ hr
  · exact ht _ _ hr
  · exact ht _ _ hr

/-- **C307** What each call answers, after every program of calls that returned: `Start` and `Tick` are refused exactly when a duration is below one nanosecond or the
timer is armed or was stopped since it was last armed; `Reset` exactly when the duration is below one nanosecond; `Stop` exactly when the timer is neither armed nor
was stopped, that is when it was never armed or has run. -/
theorem C307_answers (cs : List Call) (tg : Tg) (l : List (Call × Option Err)) (h : runAnswers cs Tg.init = .ok (tg, l)) (t : Nat) (tg' : Tg) (r : Option Err) :
    (∀ d now, (Call.start t d now).run tg = .ok (tg', r) →
      r = if d < 1 then some .negativeDuration
        else if (armed tg).due t ≠ none ∨ lastWasStop t false l = true then some .alreadyStarted else none) ∧
    (∀ f i now, (Call.tick t f i now).run tg = .ok (tg', r) →
      r = if f < 1 ∨ i < 1 then some .negativeDuration
        else if (armed tg).due t ≠ none ∨ lastWasStop t false l = true then some .alreadyStarted else none) ∧
    (∀ d now, (Call.reset t d now).run tg = .ok (tg', r) → r = if d < 1 then some .negativeDuration else none) ∧
    ((Call.stop t).run tg = .ok (tg', r) →
      r = if (armed tg).due t ≠ none ∨ lastWasStop t false l = true then none else some .notInit) := by
  obtain ⟨g, hl⟩ := run_halted cs Tg.init tg l good_init h
  have hl := hl t
  rw [show halted (Tg.init.tm t) = false from rfl] at hl
  refine ⟨?_, ?_, ?_, ?_⟩
  · intro d now hr
    rw [← hl]
    exact start_answer g hr
  · intro f i now hr
    rw [← hl]
    unfold Call.run tick at hr
    simp only at hr
    split at hr
    · rename_i hd; cases hr; rw [if_pos hd]
    · rename_i hd
      rw [if_neg hd, start_answer (setPeriod_good g t (by omega)) hr, if_neg (by omega)]
      have h1 : (armed (tg.setPeriod t i)).due t = (armed tg).due t := by
        rw [armed_eq, armed_eq]; simp [setPeriod_tm, dueOf]
      have h2 : halted ((tg.setPeriod t i).tm t) = halted (tg.tm t) := by
        rw [setPeriod_tm]; simp [halted]
      rw [h1, h2]
  · intro d now hr
    have := (C66_duration_check tg tg' t d 0 0 now r).2.1 hr
    by_cases hd : d < 1
    · rw [if_pos hd]; exact this.mpr hd
    · rw [if_neg hd]
      exact reset_none g hr (by omega)
  · intro hr
    rw [← hl]
    have hrest := g.rest t (by simp)
    rw [armed_eq]
    unfold Call.run stop at hr
    rcases hrest with hs | hs | hs | hs | hs | hs <;> simp only [hs] at hr
    · cases hr; simp [dueOf, halted, hs]
    · split at hr
      · cases hr; simp [dueOf, halted, hs]
      · cases hr
    · cases hr; simp [dueOf, halted, hs]
    · cases hr; simp [dueOf, halted, hs]
    · split at hr
      · cases hr; simp [dueOf, halted, hs]
      · cases hr
    · split at hr
      · cases hr; simp [dueOf, halted, hs]
      · cases hr

/-- The answers of a program, if it returns. -/
def answersOf (cs : List Call) : Option (List (Option Err)) :=
  match runAnswers cs Tg.init with
  | .ok (_, l) => some (l.map (·.2))
  | _ => none

example : answersOf [.start 1 10 0, .stop 1, .stop 1, .start 1 5 0, .check 9 30, .start 2 5 0, .check 9 30, .stop 2, .start 2 3 30, .tick 2 0 1 30] =
    some [none, none, none, some .alreadyStarted, none, none, none, some .notInit, none, some .negativeDuration] := by decide +kernel

/-- C307 violated: `Stop` does not report whether the timer was stopped before it ran: of an armed timer, also the second `Stop`, which finds nothing to stop, answers
what the first did. -/
theorem C307_stop_violated (tg : Tg) (hr : Reachable tg) (t : Nat) (w : Int) (hw : (armed tg).due t = some w) :
    ∃ tg1, stop tg t = .ok (tg1, none) ∧ (armed tg1).due t = none ∧ stop tg1 t = .ok (tg1, none) := by
  have g := reachable_good hr
  have hrest := g.rest t (by simp)
  rw [armed_eq] at hw
  have hin : ∀ {s}, (tg.tm t).status = s → s ≠ .unset → s ≠ .removed → (tg.tm t).timing = true := by
    intro s hs h1 h2
    exact (g.timing t (by simp)).mpr ((g.inn t (by simp)).mpr ⟨by rw [hs]; exact h1, by rw [hs]; exact h2⟩)
  have fin : stop tg t = .ok ({ tg.setStatus t .deleted with deletedCount := (tg.setStatus t .deleted).deletedCount + 1 }, none) →
      ∃ tg1, stop tg t = .ok (tg1, none) ∧ (armed tg1).due t = none ∧ stop tg1 t = .ok (tg1, none) := by
    intro h
    refine ⟨_, h, ?_, ?_⟩
    · rw [armed_eq]; simp [dueOf, Tg.setStatus]
    · simp [stop, Tg.setStatus]
  rcases hrest with hs | hs | hs | hs | hs | hs
  · simp [dueOf, hs] at hw
  · apply fin; unfold stop; simp only [hs]; rw [if_pos (hin hs (by simp) (by simp))]
  · simp [dueOf, hs] at hw
  · simp [dueOf, hs] at hw
  · apply fin; unfold stop; simp only [hs]; rw [if_pos (hin hs (by simp) (by simp))]
  · apply fin; unfold stop; simp only [hs]; rw [if_pos (hin hs (by simp) (by simp))]

/-- C307 violated: `Reset` does not report whether the timer was changed before it ran: it answers without an error for armed, stopped, run and new timers alike.
And for a ticker that is armed it changes not just the interval, as documented, but also the deadline of the next tick: it becomes `d` from now. -/
theorem C307_reset_violated (tg tg' : Tg) (hr : Reachable tg) (t : Nat) (d now : Int) (hd : 1 ≤ d) (r : Option Err) (h : reset tg t d now = .ok (tg', r)) :
    r = none ∧ (armed tg').due t = some (now + d) ∧ ((armed tg).period t ≠ 0 → (armed tg').period t = d) := by
  have g := reachable_good hr
  obtain ⟨new, _, _, h2⟩ := call_spec (c := .reset t d now) g h
  have hn : r = none := reset_none g h hd
  rw [if_pos hn] at h2
  refine ⟨hn, ?_, ?_⟩
  · rw [h2]; simp [upd]
  · intro hp
    rw [h2]; simp [upd, hp]

example : ∃ tg tg', Reachable tg ∧ (armed tg).due 1 = some 10 ∧ (armed tg).period 1 = 4 ∧ reset tg 1 30 2 = .ok (tg', none) := by
  obtain ⟨tg, e, h⟩ := ends_elim (cs := [.tick 1 10 4 0]) (P := fun tg => decide ((armed tg).due 1 = some 10 ∧ (armed tg).period 1 = 4) &&
    match reset tg 1 30 2 with | .ok (_, none) => true | _ => false) (by decide +kernel)
  simp only [Bool.and_eq_true, decide_eq_true_eq] at h
  obtain ⟨⟨h1, h2⟩, h3⟩ := h
  split at h3
  · rename_i tg' hq
    exact ⟨tg, tg', reach e, h1, h2, hq⟩
  · cases h3

/-- **C307**, the part that holds: `Reset` of a ticker sets its interval to `d`, and changes nothing of any other timer. `Reset` of a new timer or of one that has run,
if it returns, arms it as `Start` does.
Missing: the deadline of the next tick is kept (refuted: `C307_reset_violated`). -/
theorem C307_reset_partial (tg tg' : Tg) (hr : Reachable tg) (t : Nat) (d now : Int) (hd : 1 ≤ d) (r : Option Err) (h : reset tg t d now = .ok (tg', r)) :
    (armed tg').period t = (if (armed tg).period t = 0 then 0 else d) ∧
    (∀ u, u ≠ t → (armed tg').due u = (armed tg).due u ∧ (armed tg').period u = (armed tg).period u) ∧
    ∀ tg2, start tg t d now = .ok (tg2, none) → (armed tg').due = (armed tg2).due := by
  have g := reachable_good hr
  obtain ⟨new, _, _, h2⟩ := call_spec (c := .reset t d now) g h
  rw [if_pos (reset_none g h hd)] at h2
  refine ⟨?_, ?_, ?_⟩
  · rw [h2]
    by_cases hp : (armed tg).period t = 0 <;> simp [upd, hp]
  · intro u hu
    rw [h2]
    by_cases hp : (armed tg).period t = 0 <;> simp [upd, hp, hu]
  · intro tg2 hs
    obtain ⟨new', _, _, h3⟩ := call_spec (c := .start t d now) g hs
    rw [if_pos rfl] at h3
    rw [h2, h3]

end Memar.Timer.Queue
