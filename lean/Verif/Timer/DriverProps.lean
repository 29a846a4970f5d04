import Verif.Timer.DriverLemmas

/-!
# C147: what checking the queue answers, and the loop that runs the timers
-/

namespace Memar.Timer.Queue

open Memar.Timer

/-! ## The answer of a check -/

/-- C147: `checkTimers` reports that it ran a timer exactly when some callback ran, and it never takes back one. -/
theorem C147_ran (tg tg' : Tg) (h : Reachable tg) (fuel : Nat) (now nw : Int) (ran : Bool) (h0 : 0 ≤ now)
    (hc : checkTimers fuel tg now = .ok (tg', nw, ran)) :
    ∃ new, tg'.fired = tg.fired ++ new ∧ (ran = true ↔ new ≠ []) :=
  (check_answer h0 (reachable_good h) hc).1

example : ∃ tg tg' nw ran, Reachable tg ∧ checkTimers 9 tg 12 = .ok (tg', nw, ran) ∧ ∃ new, tg'.fired = tg.fired ++ new ∧ (ran = true ↔ new ≠ []) := by
  obtain ⟨tg, e, h⟩ := ends_elim (cs := [.start 1 10 0, .start 2 25 0, .start 3 50 0])
    (P := fun tg => match checkTimers 9 tg 12 with
      | .ok _ => true
      | _ => false) (by decide +kernel)
  split at h
  · rename_i r hr
    exact ⟨tg, r.1, r.2.1, r.2.2, reach e, hr, C147_ran tg r.1 (reach e) 9 12 r.2.1 r.2.2 (by decide) hr⟩
  · cases h

/-- What the documentation of `checkTimers` says about its first result: "the time when the next timer should run
(always larger than the now) or 0 if there is no next timer". -/
def NextRight (tg : Tg) : Prop :=
  ∀ fuel now tg' nw ran, 0 ≤ now → checkTimers fuel tg now = .ok (tg', nw, ran) →
    (nw = 0 ↔ ∀ t, (armed tg').due t = none) ∧
    (nw ≠ 0 → now < nw ∧ (∃ t, (armed tg').due t = some nw) ∧ ∀ t d, (armed tg').due t = some d → nw ≤ d)

/-- C236 violated for timers that were reset: with enough stopped timers in the queue, the check at 10 answers 200
although the second timer was reset to run at 60. -/
theorem C236_next_violated : ∃ cs tg, (∀ c ∈ cs, c.plain) ∧ runCalls cs Tg.init = .ok tg ∧
    ∃ tg' nw ran, checkTimers 9 tg 10 = .ok (tg', nw, ran) ∧ nw = 200 ∧ (armed tg').due 2 = some 60 := by
  obtain ⟨tg, h1, h2⟩ := ends_elim
    (cs := [.start 1 200 0, .start 2 300 0, .start 3 400 0, .stop 3, .reset 2 60 0])
    (P := fun tg => match checkTimers 9 tg 10 with
      | .ok r => decide (r.2.1 = 200 ∧ (armed r.1).due 2 = some 60)
      | _ => false) (by decide +kernel)
  refine ⟨_, tg, ?_, h1, ?_⟩
  · intro c hc
    simp only [List.mem_cons, List.not_mem_nil, or_false] at hc
    rcases hc with e | e | e | e | e <;> subst e <;> simp [Call.plain]
  · split at h2
    · rename_i r hr
      exact ⟨r.1, r.2.1, r.2.2, hr, of_decide_eq_true h2⟩
    · cases h2

/-- C236 violated for timers that were stopped: the check at 5 answers 10, the deadline of a stopped timer, although no
timer is to run before 20. -/
theorem C236_next_stopped_violated : ∃ cs tg, (∀ c ∈ cs, c.plain) ∧ runCalls cs Tg.init = .ok tg ∧
    ∃ tg' nw ran, checkTimers 9 tg 5 = .ok (tg', nw, ran) ∧ nw = 10 ∧ ∀ t, (armed tg').due t ≠ some 10 := by
  obtain ⟨tg, h1, h2⟩ := ends_elim
    (cs := [.start 1 10 0, .start 2 20 0, .start 3 30 0, .start 4 40 0, .stop 1])
    (P := fun tg => match checkTimers 9 tg 5 with
      | .ok r => decide (r.2.1 = 10 ∧ r.1.heap.all (fun b => decide ((armed r.1).due b.timer ≠ some 10)) = true)
      | _ => false) (by decide +kernel)
  refine ⟨_, tg, ?_, h1, ?_⟩
  · intro c hc
    simp only [List.mem_cons, List.not_mem_nil, or_false] at hc
    rcases hc with e | e | e | e | e <;> subst e <;> simp [Call.plain]
  · split at h2
    · rename_i r hr
      obtain ⟨q1, q2⟩ := of_decide_eq_true h2
      refine ⟨r.1, r.2.1, r.2.2, hr, q1, fun t hd => ?_⟩
      obtain ⟨⟨b, hb, e⟩, _⟩ := due_in_heap (check_armed (runCalls_good good_init h1) hr).1 hd
      have := of_decide_eq_true (List.all_eq_true.mp q2 b hb)
      rw [e] at this
      exact this hd
    · cases h2

/-- A program that starts and stops one-shot timers, on a clock that is not negative. -/
def Call.noReset : Call → Prop
  | .start _ _ now => 0 ≤ now
  | .stop _ => True
  | .check _ now => 0 ≤ now
  | .reset .. => False
  | .tick .. => False

theorem noReset_plain {c : Call} (h : c.noReset) : c.plain := by
  cases c <;> first | exact h | exact absurd h id

theorem runCalls_me {cs : List Call} {tg tg' : Tg} (g : Good none tg) (k : Timely tg)
    (hm : tg.modifiedEarliest = 0) (hp : ∀ c ∈ cs, c.noReset) (h : runCalls cs tg = .ok tg') :
    tg'.modifiedEarliest = 0 := by
  induction cs generalizing tg with
  | nil => cases h; exact hm
  | cons c cs ih =>
    rw [runCalls] at h
    cases hc : c.run tg with
    | ok r =>
      obtain ⟨tg1, e⟩ := r
      rw [hc] at h
      have hpl := hp c (by simp)
      have k1 : Timely tg1 := runCalls_timely (cs := [c]) g k
        (fun d hd => by rw [List.mem_singleton.mp hd]; exact noReset_plain hpl) (by rw [runCalls, hc]; rfl)
      refine ih (call_good g hc) k1 ?_ (fun c hc => hp c (List.mem_cons_of_mem _ hc)) h
      cases c with
      | start t d now =>
        rcases start_me hc with e | e
        · rw [e]; exact hm
        · exact e
      | stop t =>
        obtain ⟨tg2, r2, q1, _, _, _, q5, _⟩ := stop_ok g t
        simp only [Call.run] at hc
        rw [q1] at hc; cases hc
        rw [q5]; exact hm
      | reset t d now => exact absurd hpl id
      | tick t f i now => exact absurd hpl id
      | check fuel now =>
        simp only [Call.run] at hc
        cases hx : checkTimers fuel tg now with
        | ok r =>
          obtain ⟨tg2, nw, ran⟩ := r
          rw [hx] at hc; cases hc
          exact (check_first g k hm hx).1
        | _ => rw [hx] at hc; cases hc
    | _ => rw [hc] at h; cases h

/-- Without resets and periodic timers, the answer is never after a deadline, it is after `now`, and it is 0 only when
no timer is armed.  What is missing of `NextRight`: that it is a deadline.
Missing: that the answer is a deadline (refuted: `C236_next_stopped_violated`), and resets (refuted: `C236_next_violated`). -/
theorem C236_next_partial (cs : List Call) (hp : ∀ c ∈ cs, c.noReset) (tg : Tg)
    (h : runCalls cs Tg.init = .ok tg) (fuel : Nat) (now nw : Int) (tg' : Tg) (ran : Bool) (h0 : 0 ≤ now)
    (hc : checkTimers fuel tg now = .ok (tg', nw, ran)) :
    (nw = 0 → ∀ t, (armed tg').due t = none) ∧
    (nw ≠ 0 → now < nw ∧ ∀ t d, (armed tg').due t = some d → nw ≤ d) := by
  have g := runCalls_good good_init h
  have k := runCalls_timely good_init timely_init (fun c hc => noReset_plain (hp c hc)) h
  have hm := runCalls_me good_init timely_init rfl hp h
  have hf := (check_first g k hm hc).2
  rcases (check_answer h0 g hc).2 with ⟨q1, q2, q3⟩ | ⟨q1, q2⟩ | ⟨q1, q2⟩
  · refine ⟨fun e t => ?_, fun e => ⟨by omega, hf⟩⟩
    have hq := (check_timely g k hc).2
    cases hd : (armed tg').due t with
    | none => rfl
    | some d =>
      subst q2
      obtain ⟨⟨b, hb, _⟩, _⟩ := due_in_heap g hd
      have ht0 := g.t0
      obtain ⟨b0, hb0⟩ := heap_head (tg := tg') (fun e0 => by
        rw [List.eq_nil_of_length_eq_zero e0] at hb; cases hb)
      rw [headWhen, hb0] at ht0
      simp only at ht0
      have hpos := (k.ent b0 (head_mem hb0)).1
      unfold wakeTime at q1
      split at q1 <;> omega
  · exact ⟨fun e => by omega, fun _ => ⟨q1, hf⟩⟩
  · exact ⟨fun _ => q2, fun e => absurd q1 e⟩

example : ∃ tg, runCalls [.start 1 10 0, .start 2 25 0, .start 3 50 0, .stop 1] Tg.init = .ok tg ∧
    (match checkTimers 9 tg 12 with
      | .ok r => decide (r.2.1 = 25 ∧ r.2.2 = false)
      | _ => false) = true :=
  ends_elim (by decide +kernel)

/-! ### Only starts and checks: the answer is exact -/

/-- A program that only starts one-shot timers and checks the queue. -/
def Call.starts : Call → Prop
  | .start _ _ now => 0 ≤ now
  | .check _ now => 0 ≤ now
  | _ => False

theorem starts_noReset {c : Call} (h : c.starts) : c.noReset := by
  cases c <;> first | exact h | exact absurd h id

/-- Every timer is at rest or waiting. -/
def Fresh (tg : Tg) : Prop := ∀ t, (tg.tm t).status = .unset ∨ (tg.tm t).status = .waiting

theorem fresh_cleaned {tg tg1 : Tg} (hc : Cleaned tg tg1) (h : Fresh tg) : Fresh tg1 := by
  intro t
  rcases hc.1 t with e | ⟨_, e, _⟩
  · rw [e]; exact h t
  · rcases h t with e' | e' <;> rw [e'] at e <;> cases e

theorem runTimer_fresh {tg tg' : Tg} {now w : Int} (g : Good none tg) (hne : tg.heap.length ≠ 0) (hf : Fresh tg)
    (h : runTimer tg.heap.length tg now = .ok (tg', w)) : Fresh tg' := by
  obtain ⟨r1, _⟩ := runTimer_spec _ tg now g (Nat.le_refl _) hne
  rw [h] at r1
  cases r1 with
  | later _ b hc hb hs hw => exact fresh_cleaned hc hf
  | once tg1 b l hc hb hs hw hp hh =>
    intro t
    have : (ranOnce tg1 b l now).tm t = _ := popped_tm tg1 b l .unset tg1.deletedCount t
    rw [this]
    split
    · exact Or.inl rfl
    · exact fresh_cleaned hc hf t
  | periodic tg1 b hc hb hs hw hp =>
    intro t
    have := fresh_cleaned hc hf t
    show ((tg1.setWhen _ _).tm t).status = _ ∨ ((tg1.setWhen _ _).tm t).status = _
    rw [setWhen_tm]
    split
    · rename_i e; subst e; exact this
    · exact this
  | empty _ hc he hd => exact fresh_cleaned hc hf

theorem runAll_fresh (fuel : Nat) {tg tg' : Tg} {now nw : Int} {ran : Bool} (g : Good none tg) (hf : Fresh tg)
    (h : runAll fuel tg now = .ok (tg', nw, ran)) : Fresh tg' := by
  induction fuel generalizing tg tg' nw ran with
  | zero =>
    rw [runAll] at h
    split at h
    · cases hr : runTimer tg.heap.length tg now with
      | ok r =>
        obtain ⟨tg1, tw⟩ := r
        have q := runTimer_fresh g (by omega) hf hr
        rw [hr] at h
        simp only at h
        split at h
        · cases h; exact q
        · cases h
      | _ => rw [hr] at h; cases h
    · cases h; exact hf
  | succ fuel ih =>
    rw [runAll] at h
    split at h
    · cases hr : runTimer tg.heap.length tg now with
      | ok r =>
        obtain ⟨tg1, tw⟩ := r
        have q := runTimer_fresh g (by omega) hf hr
        have q1 := (runTimer_armed g (by omega) hr).1
        rw [hr] at h
        simp only at h
        split at h
        · cases h; exact q
        · cases hr2 : runAll fuel tg1 now with
          | ok r2 =>
            obtain ⟨tg2, nw2, ran2⟩ := r2
            rw [hr2] at h
            simp only [Out.bind, Out.ok.injEq, Prod.mk.injEq] at h
            rw [← h.1]
            exact ih q1 q hr2
          | _ => rw [hr2] at h; cases h
      | _ => rw [hr] at h; cases h
    · cases h; exact hf

theorem clear_fresh {tg tg' : Tg} (g : Good none tg) (hf : Fresh tg) (h : clearDeleted tg = .ok tg') : Fresh tg' := by
  obtain ⟨tg2, r1, _, _, r4, _, _⟩ := clearDeleted_spec g
  rw [r1] at h; cases h
  intro t
  rw [r4]
  split
  · rw [sweptTm_status]
    rcases hf t with e | e <;> rw [e] <;> simp
  · exact hf t

theorem check_fresh {fuel : Nat} {tg tg' : Tg} {now nw : Int} {ran : Bool} (g : Good none tg) (hf : Fresh tg)
    (h : checkTimers fuel tg now = .ok (tg', nw, ran)) : Fresh tg' := by
  unfold checkTimers at h
  split at h
  · cases h; exact hf
  · split at h
    · cases h; exact hf
    · have key : ∀ tg2 nw2 ran2, (if tg.heap.length > 0 then
          (adjustTimers tg now).bind fun tg1 => runAll fuel tg1 now
          else Out.ok (tg, (0 : Int), false)) = .ok (tg2, nw2, ran2) →
          Good none tg2 ∧ Fresh tg2 := by
        intro tg2 nw2 ran2 hh
        split at hh
        · rcases adjust_spec g now with ⟨a1, _⟩ | ⟨a1, _⟩ | ⟨a1, _⟩
          · rw [a1] at hh; exact ⟨(runAll_armed fuel g hh).1, runAll_fresh fuel g hf hh⟩
          · rw [a1] at hh
            exact ⟨(runAll_armed (tg := { tg with modifiedEarliest := 0 }) fuel (good_me g 0) hh).1,
              runAll_fresh (tg := { tg with modifiedEarliest := 0 }) fuel (good_me g 0) hf hh⟩
          · rw [a1] at hh; cases hh
        · cases hh; exact ⟨g, hf⟩
      cases hx : (if tg.heap.length > 0 then
          (adjustTimers tg now).bind fun tg1 => runAll fuel tg1 now
          else Out.ok (tg, (0 : Int), false)) with
      | ok r =>
        obtain ⟨tg2, nw2, ran2⟩ := r
        obtain ⟨k1, k2⟩ := key _ _ _ hx
        rw [hx] at h
        simp only [Out.bind] at h
        split at h
        · cases hc : clearDeleted tg2 with
          | ok tg3 =>
            rw [hc] at h
            cases h
            exact clear_fresh k1 k2 hc
          | _ => rw [hc] at h; cases h
        · cases h; exact k2
      | _ => rw [hx] at h; cases h

theorem runCalls_fresh {cs : List Call} {tg tg' : Tg} (g : Good none tg) (hf : Fresh tg)
    (hp : ∀ c ∈ cs, c.starts) (h : runCalls cs tg = .ok tg') : Fresh tg' := by
  induction cs generalizing tg with
  | nil => cases h; exact hf
  | cons c cs ih =>
    rw [runCalls] at h
    cases hc : c.run tg with
    | ok r =>
      obtain ⟨tg1, e⟩ := r
      rw [hc] at h
      have hpl := hp c (by simp)
      refine ih (call_good g hc) ?_ (fun c hc => hp c (List.mem_cons_of_mem _ hc)) h
      cases c with
      | start t d now =>
        rcases start_ok g hc with ⟨_, e⟩ | ⟨_, _, _, _, tg2, hp2, _, e1, e2, _, e3⟩
        · rw [e]; exact hf
        · rw [e3]
          intro u
          by_cases hu : u = t
          · subst hu; rw [added_self, e2]; exact Or.inr rfl
          · rw [added_other hu]
            rcases e1.1 u with e | ⟨_, e, _⟩
            · rw [e, setTiming_tm, if_neg hu, setWhen_tm, if_neg hu, setStatus_tm, if_neg hu]; exact hf u
            · rw [setTiming_tm, if_neg hu, setWhen_tm, if_neg hu, setStatus_tm, if_neg hu] at e
              rcases hf u with e' | e' <;> rw [e'] at e <;> cases e
      | stop t => exact absurd hpl id
      | reset t d now => exact absurd hpl id
      | tick t f i now => exact absurd hpl id
      | check fuel now =>
        simp only [Call.run] at hc
        cases hx : checkTimers fuel tg now with
        | ok r =>
          obtain ⟨tg2, nw, ran⟩ := r
          rw [hx] at hc; cases hc
          exact check_fresh g hf hx
        | _ => rw [hx] at hc; cases hc
    | _ => rw [hc] at h; cases h

/-- A program that only starts one-shot timers and checks the queue gets the documented answer.
Missing: timers that were stopped or reset, calls during the sleep, and late rounds (refuted:
`C236_next_violated`, `C236_next_stopped_violated`, `C236_loop_idle_violated` and others). -/
theorem C236_next_exact_partial (cs : List Call) (hp : ∀ c ∈ cs, c.starts) (tg : Tg)
    (h : runCalls cs Tg.init = .ok tg) : NextRight tg := by
  intro fuel now tg' nw ran h0 hc
  have g := runCalls_good good_init h
  have k := runCalls_timely good_init timely_init (fun c hc => noReset_plain (starts_noReset (hp c hc))) h
  have hm := runCalls_me good_init timely_init rfl (fun c hc => starts_noReset (hp c hc)) h
  have hf := runCalls_fresh good_init (fun _ => Or.inl rfl) hp h
  obtain ⟨p1, p2⟩ := C236_next_partial cs (fun c hc => starts_noReset (hp c hc)) tg h fuel now nw tg' ran h0 hc
  have hex : nw ≠ 0 → ∃ t, (armed tg').due t = some nw := by
    intro hne
    rcases (check_answer h0 g hc).2 with ⟨q1, q2, q3⟩ | ⟨q1, q2⟩ | ⟨q1, q2⟩
    · subst q2
      by_cases he : tg'.heap = []
      · have ht0 := g.t0
        rw [headWhen, he] at ht0
        have ht : tg'.timer0When = 0 := ht0
        unfold wakeTime at q1
        rw [if_pos (Or.inl ht)] at q1
        exact absurd (q1.trans hm) hne
      · obtain ⟨b, hb⟩ := heap_head (tg := tg') (fun e => he (List.eq_nil_of_length_eq_zero e))
        have hbm := head_mem hb
        have ht0 := g.t0
        rw [headWhen, hb] at ht0
        simp only at ht0
        have hpos := (k.ent b hbm).1
        have hw : nw = b.when := by
          unfold wakeTime at q1
          split at q1 <;> omega
        have hs : (tg'.tm b.timer).status = .waiting := by
          rcases hf b.timer with e | e
          · exact absurd e ((g.inn b.timer (by simp)).mp (mem_ids.mpr ⟨b, hbm, rfl⟩)).1
          · exact e
        refine ⟨b.timer, ?_⟩
        rw [armed_eq]
        simp only [dueOf, hs]
        rcases g.same b hbm hs with e | e
        · rw [hw, e]
        · rw [k.per] at e; omega
    · exact q2
    · exact absurd q1 hne
  refine ⟨⟨p1, fun hn => ?_⟩, fun hne => ⟨(p2 hne).1, hex hne, (p2 hne).2⟩⟩
  apply Decidable.byContradiction
  intro hne
  obtain ⟨t, ht⟩ := hex hne
  rw [hn t] at ht
  cases ht

example : ∃ tg, runCalls [.start 1 10 0, .start 2 25 0, .start 3 50 0] Tg.init = .ok tg ∧
    (match checkTimers 9 tg 12 with
      | .ok r => decide (r.2.1 = 25 ∧ r.2.2 = true)
      | _ => false) = true :=
  ends_elim (by decide +kernel)

/-! ## The loop of `Start` -/

/-- C236 violated for a queue without timers: the loop asks to sleep for `0 - now`, a negative duration, and so runs
round after round without any time passing. -/
theorem C236_loop_idle_violated (fuel : Nat) (now : Int) (h0 : 0 < now) :
    (∃ d, startRound fuel Tg.init now = .ok (Tg.init, d) ∧ d < 0) ∧
    ∀ n, driver (List.replicate n ⟨fuel, [], 0⟩) Tg.init now = .ok (Tg.init, now) := by
  have h1 : startRound fuel Tg.init now = .ok (Tg.init, 0 - now) := rfl
  refine ⟨⟨_, h1, by omega⟩, fun n => ?_⟩
  induction n with
  | zero => rfl
  | succ n ih =>
    rw [List.replicate_succ, driver, h1]
    simp only [Out.bind, runCalls, wakeAt]
    rw [if_pos (by omega)]
    simpa using ih

example := C236_loop_idle_violated 9 12 (by decide)

/-- A timer that did not run keeps its deadline. -/
theorem fires_unfired {now : Int} {a a' : Armed} {new : List (Nat × Int)} (f : Fires now a new a') (t : Nat)
    (h : (t, now) ∉ new) : a'.due t = a.due t := by
  induction f with
  | nil => rfl
  | once a t' w rest a' h1 h2 h3 h4 ih =>
    have ht : t ≠ t' := fun e => h (by rw [e]; simp)
    rw [ih (fun hm => h (List.mem_cons_of_mem _ hm))]
    simp [upd, ht]
  | again a t' w w2 rest a' h1 h2 h3 hn h4 ih =>
    have ht : t ≠ t' := fun e => h (by rw [e]; simp)
    rw [ih (fun hm => h (List.mem_cons_of_mem _ hm))]
    simp [upd, ht]

theorem startRound_check {fuel : Nat} {tg tg1 : Tg} {now d : Int} (h : startRound fuel tg now = .ok (tg1, d)) :
    ∃ ran, checkTimers fuel tg now = .ok (tg1, now + d, ran) := by
  unfold startRound at h
  cases hc : checkTimers fuel tg now with
  | ok r =>
    obtain ⟨tg2, nw, ran⟩ := r
    rw [hc] at h
    simp only [Out.bind, Out.ok.injEq, Prod.mk.injEq] at h
    refine ⟨ran, ?_⟩
    rw [h.1, show now + d = nw by omega]
  | _ => rw [hc] at h; cases h

/-- C236 violated for a timer started while the loop sleeps: nothing wakes the loop up, so the callback of a timer that
is due at `now2 + d2`, before the end of the sleep, runs only when the sleep is over. -/
theorem C236_loop_new_timer_violated (cs : List Call) (hp : ∀ c ∈ cs, c.plain) (tg tg1 tg2 tg3 : Tg)
    (h : runCalls cs Tg.init = .ok tg) (fuel fuel2 late t : Nat) (now d now2 d2 e : Int) (h0 : 0 ≤ now) (h2 : 0 ≤ now2)
    (hr : startRound fuel tg now = .ok (tg1, d)) (hs : Call.run tg1 (.start t d2 now2) = .ok (tg2, none))
    (early : now2 + d2 < wakeAt now d late) (hr2 : startRound fuel2 tg2 (wakeAt now d late) = .ok (tg3, e)) :
    (armed tg2).due t = some (now2 + d2) ∧
      ∃ new, tg3.fired = tg2.fired ++ new ∧ (t, wakeAt now d late) ∈ new := by
  have g := runCalls_good good_init h
  have k := runCalls_timely good_init timely_init hp h
  obtain ⟨r1, c1⟩ := startRound_check hr
  obtain ⟨r2, c2⟩ := startRound_check hr2
  have g1 := (check_armed g c1).1
  have k1 := (check_timely g k c1).1
  have g2 := call_good g1 hs
  have k2 : Timely tg2 := start_timely g1 k1 h2 hs
  have hdue : (armed tg2).due t = some (now2 + d2) := by
    obtain ⟨n1, _, a2⟩ := call_spec g1 hs
    rw [a2.2, if_pos rfl]; simp [upd]
  obtain ⟨g3, new, n1, n2⟩ := check_armed g2 c2
  refine ⟨hdue, new, n1, ?_⟩
  apply Decidable.byContradiction
  intro hn
  have q := (check_timely g2 k2 c2).2 t (now2 + d2) (by rw [fires_unfired n2 t hn]; exact hdue)
  omega

example : ∃ tg tg1 tg2 tg3, ∃ d e : Int, runCalls [.start 1 100 0] Tg.init = .ok tg ∧ startRound 9 tg 1 = .ok (tg1, d) ∧
    Call.run tg1 (.start 2 5 3) = .ok (tg2, none) ∧ startRound 9 tg2 (wakeAt 1 d 0) = .ok (tg3, e) ∧ (armed tg2).due 2 = some (3 + 5) := by
  obtain ⟨tg, h0, h⟩ := ends_elim (cs := [.start 1 100 0])
    (P := fun tg => match startRound 9 tg 1 with
      | .ok r => (match Call.run r.1 (.start 2 5 3) with
        | .ok (tg2, none) => (match startRound 9 tg2 (wakeAt 1 r.2 0) with
          | .ok _ => decide (3 + 5 < wakeAt 1 r.2 0)
          | _ => false)
        | _ => false)
      | _ => false) (by decide +kernel)
  split at h
  · rename_i r h1
    split at h
    · rename_i tg2 h2
      split at h
      · rename_i r3 h3
        exact ⟨tg, r.1, tg2, r3.1, r.2, r3.2, h0, h1, h2, h3, (C236_loop_new_timer_violated [.start 1 100 0] (by simp [Call.plain]) tg r.1 tg2 r3.1
          h0 9 9 0 2 1 r.2 3 5 r3.2 (by decide) (by decide) h1 h2 (of_decide_eq_true h) h3).1⟩
      · cases h
    · cases h
  · cases h

/-- Every callback runs no earlier than its deadline. -/
theorem fires_deadline {now : Int} {a a' : Armed} {new : List (Nat × Int)} (f : Fires now a new a')
    (hper : ∀ t, a.period t ≤ 0) (t : Nat) (n : Int) (hm : (t, n) ∈ new) :
    n = now ∧ ∃ w, a.due t = some w ∧ w ≤ now := by
  induction f with
  | nil => cases hm
  | once a t' w rest a' h1 h2 h3 h4 ih =>
    rcases List.mem_cons.mp hm with e | e
    · cases e; exact ⟨rfl, w, h1, h2⟩
    · obtain ⟨q1, w', q2, q3⟩ := ih hper e
      refine ⟨q1, ?_⟩
      simp only [upd] at q2
      split at q2
      · cases q2
      · exact ⟨w', q2, q3⟩
  | again a t' w w2 rest a' h1 h2 h3 hn h4 ih => have := hper t'; omega

/-- When no call is made during the sleep and the thread wakes up in time, the loop runs every callback exactly at its
deadline: the timers that run in the next round are those that are due at that very moment, and none that is due is
left.  (For one-shot timers that were not reset.)
Missing: timers that were stopped or reset, calls during the sleep, and late rounds (refuted:
`C236_next_violated`, `C236_next_stopped_violated`, `C236_loop_idle_violated` and others). -/
theorem C236_loop_on_time_partial (cs : List Call) (hp : ∀ c ∈ cs, c.noReset) (tg tg1 tg2 : Tg)
    (h : runCalls cs Tg.init = .ok tg) (fuel fuel2 : Nat) (now d e : Int) (h0 : 0 ≤ now)
    (hr : startRound fuel tg now = .ok (tg1, d)) (hd : 0 < now + d)
    (hr2 : startRound fuel2 tg1 (now + d) = .ok (tg2, e)) :
    wakeAt now d 0 = now + d ∧
    ∃ new, tg2.fired = tg1.fired ++ new ∧
      ∀ t x, (t, x) ∈ new ↔ x = now + d ∧ (armed tg1).due t = some (now + d) := by
  have g := runCalls_good good_init h
  have hpl : ∀ c ∈ cs, c.plain := fun c hc => noReset_plain (hp c hc)
  have k := runCalls_timely good_init timely_init hpl h
  obtain ⟨r1, c1⟩ := startRound_check hr
  obtain ⟨r2, c2⟩ := startRound_check hr2
  have g1 := (check_armed g c1).1
  have k1 := (check_timely g k c1).1
  obtain ⟨p1, p2⟩ := (C236_next_partial cs hp tg h fuel now (now + d) tg1 r1 h0 c1).2 (by omega)
  obtain ⟨g2, new, n1, n2⟩ := check_armed g1 c2
  refine ⟨by simp only [wakeAt]; rw [if_neg (by omega)]; simp, new, n1, fun t x => ⟨fun hm => ?_, fun hx => ?_⟩⟩
  · obtain ⟨q1, w, q2, q3⟩ := fires_deadline n2 (fun u => by
      have := k1.per u
      show (tg1.tm u).period ≤ 0
      omega) t x hm
    have := p2 t w q2
    exact ⟨q1, by rw [q2]; congr 1; omega⟩
  · obtain ⟨e1, e2⟩ := hx
    subst e1
    apply Decidable.byContradiction
    intro hn
    have q := (check_timely g1 k1 c2).2 t (now + d) (by rw [fires_unfired n2 t hn]; exact e2)
    omega

/-- Two timers: the loop wakes up at 10 and at 25. -/
example : ∃ tg, runCalls [.start 1 10 0, .start 2 25 0] Tg.init = .ok tg ∧
    (match driver [⟨9, [], 0⟩, ⟨9, [], 0⟩, ⟨9, [], 0⟩] tg 1 with
      | .ok r => decide (r.1.fired = [(1, 10), (2, 25)] ∧ r.2 = 25)
      | _ => false) = true :=
  ends_elim (by decide +kernel)

/-- A timer of 5 is started while the loop sleeps until 100: it runs at 100. -/
example : ∃ tg, runCalls [.start 1 100 0] Tg.init = .ok tg ∧
    (match driver [⟨9, [.start 2 5 3], 0⟩, ⟨9, [], 0⟩] tg 1 with
      | .ok r => decide (r.1.fired = [(2, 100), (1, 100)])
      | _ => false) = true :=
  ends_elim (by decide +kernel)

/-! ## A periodic timer that runs late -/

/-- The queue of a program that made one periodic timer. -/
def single (t : Nat) (w0 w p : Int) (fired : List (Nat × Int)) : Tg :=
  ⟨fun u => if u = t then ⟨w, p, .waiting, true⟩ else ⟨0, 0, .unset, false⟩, [⟨t, w0⟩], w0, 0, 1, 0, fired⟩

theorem tick_single (t : Nat) (f i now : Int) (hf : 1 ≤ f) (hi : 1 ≤ i) :
    runCalls [.tick t f i now] Tg.init = .ok (single t (now + f) (now + f) i []) := by
  have hins : Timer.insert ([] : List (Bucket Nat)) ⟨t, now + f⟩ = some [⟨t, now + f⟩] := by
    simp [Timer.insert, append, siftUp, siftUpLoop, place, setAt]
  simp only [runCalls, Call.run, tick]
  rw [if_neg (by omega), start, if_neg (by omega), if_neg (by simp [Tg.setPeriod, Tg.init])]
  simp only [addTimer, cleanTimers, Tg.setPeriod, Tg.setStatus, Tg.setWhen, Tg.setTiming, Tg.init, List.length_nil,
    if_true, Out.bind, hins, List.getElem?_cons_zero, single, Out.ok.injEq, Tg.mk.injEq, and_true, true_and]
  refine ⟨?_, by omega⟩
  funext u
  by_cases e : u = t <;> simp [e]

theorem runTimer_single (n t : Nat) (w0 w p now : Int) (fi : List (Nat × Int)) (hp : 0 < p) :
    runTimer n (single t w0 w p fi) now =
      if w > now then .ok (single t w0 w p fi, w)
      else .ok (single t w0 (nextWhenInt w p now) p (fi ++ [(t, now)]), 0) := by
  have hd : siftDown [(⟨t, w0⟩ : Bucket Nat)] 0 = some [⟨t, w0⟩] := by
    refine siftDown_id _ ?_ 0 (by simp)
    intro k b p hk hb _
    cases k with
    | zero => omega
    | succ k => simp at hb
  rw [runTimer.eq_def]
  simp only [single, List.getElem?_cons_zero, if_true]
  by_cases h : w > now
  · rw [if_pos h, if_pos h]
  · rw [if_neg h, if_neg h]
    simp only [runOneTimer, Tg.setStatus, Tg.setWhen, if_true]
    rw [if_pos hp, hd]
    simp only [Out.bind, updateTimer0When, Out.ok.injEq, Prod.mk.injEq, Tg.mk.injEq, and_true, true_and]
    refine ⟨?_, ?_⟩
    · funext u
      by_cases e : u = t <;> simp [e]
    · simp

theorem runAll_later (fuel t : Nat) (w0 w p now : Int) (fi : List (Nat × Int)) (hp : 0 < p) (h0 : 0 ≤ now)
    (h : now < w) : runAll fuel (single t w0 w p fi) now = .ok (single t w0 w p fi, w, false) := by
  rw [runAll.eq_def]
  dsimp only
  rw [if_pos (by simp [single]), runTimer_single _ _ _ _ _ _ _ hp, if_pos (by omega)]
  simp only
  rw [if_pos (by omega), if_pos (by omega)]

theorem runAll_fire (fuel t : Nat) (w0 w p now : Int) (fi : List (Nat × Int)) (hp : 0 < p) (h : w ≤ now) :
    runAll (fuel + 1) (single t w0 w p fi) now =
      (runAll fuel (single t w0 (nextWhenInt w p now) p (fi ++ [(t, now)])) now).bind
        fun (tg2, nw, _) => .ok (tg2, nw, true) := by
  rw [runAll.eq_def]
  dsimp only
  rw [if_pos (by simp [single]), runTimer_single _ _ _ _ _ _ _ hp, if_neg (by omega)]
  simp

theorem check_single (fuel t : Nat) (w0 w p now : Int) (fi : List (Nat × Int)) (hw : w0 ≠ 0) (hn : w0 ≤ now)
    (o : Out (Tg × Int × Bool)) (hr : runAll fuel (single t w0 w p fi) now = o)
    (ho : o = .more ∨ ∃ w' fi' nw ran, o = .ok (single t w0 w' p fi', nw, ran)) :
    checkTimers fuel (single t w0 w p fi) now = o := by
  unfold checkTimers
  have h1 : wakeTime (single t w0 w p fi) = w0 := by
    unfold wakeTime
    refine if_neg ?_
    rintro (e | ⟨e, _⟩)
    · exact hw e
    · exact e rfl
  rw [h1, if_neg hw, if_neg (by omega), if_pos (by simp [single])]
  have h2 : adjustTimers (single t w0 w p fi) now = .ok (single t w0 w p fi) := by
    unfold adjustTimers
    exact if_pos (Or.inl rfl)
  rw [h2]
  simp only [Out.bind]
  rw [hr]
  rcases ho with e | ⟨w', fi', nw, ran, e⟩
  · subst e; rfl
  · subst e
    simp only
    rw [if_neg (by simp [single])]

/-- How many whole periods late a timer runs decides its next deadline. -/
theorem next_late (w p now k : Int) (hp : 0 < p) (h1 : w + k * p ≤ now) (h2 : now < w + (k + 1) * p) (hk : 1 ≤ k) :
    nextWhenInt w p now = if w - (k - 1) * p < 0 then maxWhenInt else w - (k - 1) * p := by
  obtain ⟨a, b⟩ := (nextWhenInt_next w p now (by omega)).2 k hk h1 h2
  split
  · rename_i h; exact b h
  · rename_i h; exact a (by omega)

/-- A periodic timer that runs in time gets the next deadline, one period later, and runs once.
Missing: timers that were stopped or reset, calls during the sleep, and late rounds (refuted:
`C236_next_violated`, `C236_next_stopped_violated`, `C236_loop_idle_violated` and others). -/
theorem C236_tick_on_time_partial (t : Nat) (f i now0 now : Int) (hf : 1 ≤ f) (hi : 1 ≤ i) (h0 : 0 ≤ now0)
    (h1 : now0 + f ≤ now) (h2 : now < now0 + f + i) (fuel : Nat) :
    ∃ tg tg', runCalls [.tick t f i now0] Tg.init = .ok tg ∧
      checkTimers (fuel + 1) tg now = .ok (tg', now0 + f + i, true) ∧ tg'.fired = [(t, now)] ∧
      (armed tg').due t = some (now0 + f + i) := by
  have hn : nextWhenInt (now0 + f) i now = now0 + f + i :=
    (nextWhenInt_next (now0 + f) i now (by omega)).1 h1 h2 (by omega)
  have hr : runAll (fuel + 1) (single t (now0 + f) (now0 + f) i []) now =
      .ok (single t (now0 + f) (now0 + f + i) i [(t, now)], now0 + f + i, true) := by
    rw [runAll_fire _ _ _ _ _ _ _ (by omega) h1, hn, List.nil_append,
      runAll_later _ _ _ _ _ _ _ (by omega) (by omega) h2]
    rfl
  refine ⟨_, single t (now0 + f) (now0 + f + i) i [(t, now)], tick_single t f i now0 hf hi, ?_, rfl, ?_⟩
  · exact check_single _ _ _ _ _ _ _ (by omega) h1 _ hr (Or.inr ⟨_, _, _, _, rfl⟩)
  · simp [armed, single]

example : ∃ tg tg', runCalls [.tick 1 10 5 0] Tg.init = .ok tg ∧
      checkTimers 3 tg 12 = .ok (tg', 15, true) ∧ tg'.fired = [(1, 12)] ∧ (armed tg').due 1 = some 15 :=
  C236_tick_on_time_partial 1 10 5 0 12 (by omega) (by omega) (by omega) (by omega) (by omega) 2

/-- C236 violated for a periodic timer that runs between one and two periods late: its deadline stays where it was, so
the check that runs it runs it again and again, however many callbacks (`fuel`) it is given. -/
theorem C236_tick_late_violated (t : Nat) (f i now0 now : Int) (hf : 1 ≤ f) (hi : 1 ≤ i) (h0 : 0 ≤ now0)
    (h1 : now0 + f + i ≤ now) (h2 : now < now0 + f + 2 * i) :
    ∃ tg, runCalls [.tick t f i now0] Tg.init = .ok tg ∧ ∀ fuel, checkTimers fuel tg now = .more := by
  refine ⟨_, tick_single t f i now0 hf hi, fun fuel => ?_⟩
  have hn : nextWhenInt (now0 + f) i now = now0 + f := by
    rw [next_late (now0 + f) i now 1 (by omega) (by omega) (by omega) (by omega), if_neg (by omega)]; omega
  refine check_single _ _ _ _ _ _ _ (by omega) (by omega) _ ?_ (Or.inl rfl)
  generalize ([] : List (Nat × Int)) = fi
  induction fuel generalizing fi with
  | zero =>
    rw [runAll.eq_def]
    dsimp only
    rw [if_pos (by simp [single]), runTimer_single _ _ _ _ _ _ _ (by omega), if_neg (by omega)]
    simp
  | succ fuel ih => rw [runAll_fire _ _ _ _ _ _ _ (by omega) (by omega), hn, ih]; rfl

example : ∃ tg, runCalls [.tick 1 10 5 0] Tg.init = .ok tg ∧ ∀ fuel, checkTimers fuel tg 16 = .more :=
  C236_tick_late_violated 1 10 5 0 16 (by omega) (by omega) (by omega) (by omega) (by omega)

theorem late_periods (w p now : Int) (hp : 0 < p) (h : w + 2 * p ≤ now) :
    ∃ k, 2 ≤ k ∧ w + k * p ≤ now ∧ now < w + (k + 1) * p := by
  refine ⟨(now - w) / p, ?_, ?_, ?_⟩
  · exact (Int.le_ediv_iff_mul_le hp).mpr (by omega)
  · have := Int.ediv_mul_le (now - w) (b := p) (by omega); omega
  · have := Int.lt_ediv_add_one_mul_self (now - w) hp; omega

/-- Two or more periods late: the deadline goes back until it would be negative. -/
theorem runAll_back (n t : Nat) (w0 w p now : Int) (fi : List (Nat × Int)) (hp : 0 < p) (hn : w.toNat ≤ n)
    (h0 : 0 ≤ w) (h : w + 2 * p ≤ now) (hmax : now < maxWhenInt) :
    ∃ fuel fi', runAll fuel (single t w0 w p fi) now =
      .ok (single t w0 maxWhenInt p (fi ++ fi'), maxWhenInt, true) ∧
      (if now ≤ 2 * w then 2 else 1) ≤ fi'.length ∧ ∀ x ∈ fi', x = (t, now) := by
  induction n generalizing w fi with
  | zero =>
    obtain ⟨k, k1, k2, k3⟩ := late_periods w p now hp h
    have hk : p ≤ (k - 1) * p := by
      have := Int.mul_le_mul_of_nonneg_right (show (1 : Int) ≤ k - 1 by omega) (show 0 ≤ p by omega); omega
    refine ⟨1, [(t, now)], ?_, ?_, by simp⟩
    · rw [runAll_fire _ _ _ _ _ _ _ hp (by omega), next_late w p now k hp k2 k3 (by omega), if_pos (by omega),
        runAll_later _ _ _ _ _ _ _ hp (by omega) hmax]
      rfl
    · rw [if_neg (by omega)]; simp
  | succ n ih =>
    obtain ⟨k, k1, k2, k3⟩ := late_periods w p now hp h
    have hk : p ≤ (k - 1) * p := by
      have := Int.mul_le_mul_of_nonneg_right (show (1 : Int) ≤ k - 1 by omega) (show 0 ≤ p by omega); omega
    have hk2 : (k - 1) * p = k * p - p := by rw [Int.sub_mul]; omega
    by_cases hneg : w - (k - 1) * p < 0
    · refine ⟨1, [(t, now)], ?_, ?_, by simp⟩
      · rw [runAll_fire _ _ _ _ _ _ _ hp (by omega), next_late w p now k hp k2 k3 (by omega), if_pos hneg,
          runAll_later _ _ _ _ _ _ _ hp (by omega) hmax]
        rfl
      · rw [if_neg (by omega)]; simp
    · obtain ⟨fuel, fi', q1, q2, q3⟩ := ih (w - (k - 1) * p) (fi ++ [(t, now)]) (by omega) (by omega) (by omega)
      refine ⟨fuel + 1, (t, now) :: fi', ?_, ?_, ?_⟩
      · rw [runAll_fire _ _ _ _ _ _ _ hp (by omega), next_late w p now k hp k2 k3 (by omega), if_neg hneg, q1]
        simp [Out.bind]
      · rw [List.length_cons]
        have : 1 ≤ fi'.length := by split at q2 <;> omega
        split <;> omega
      · intro x hx
        rcases List.mem_cons.mp hx with e | e
        · exact e
        · exact q3 x e

/-- C236 violated for a periodic timer that runs two or more periods late: its deadline goes back, so the same check
runs it again (twice at least when the clock is at most twice the deadline), and in the end the deadline is the last
moment of the clock: the timer never runs again. -/
theorem C236_tick_very_late_violated (t : Nat) (f i now0 now : Int) (hf : 1 ≤ f) (hi : 1 ≤ i) (h0 : 0 ≤ now0)
    (h1 : now0 + f + 2 * i ≤ now) (hmax : now < 9223372036854775807) :
    ∃ tg fuel tg', runCalls [.tick t f i now0] Tg.init = .ok tg ∧
      checkTimers fuel tg now = .ok (tg', 9223372036854775807, true) ∧
      (armed tg').due t = some 9223372036854775807 ∧
      (now ≤ 2 * (now0 + f) → 2 ≤ tg'.fired.length) ∧ ∀ x ∈ tg'.fired, x = (t, now) := by
  obtain ⟨fuel, fi', q1, q2, q3⟩ :=
    runAll_back (now0 + f).toNat t (now0 + f) (now0 + f) i now [] (by omega) (Nat.le_refl _) (by omega) (by omega) hmax
  rw [List.nil_append] at q1
  refine ⟨_, fuel, single t (now0 + f) maxWhenInt i fi', tick_single t f i now0 hf hi, ?_, ?_, ?_, q3⟩
  · exact check_single _ _ _ _ _ _ _ (by omega) (by omega) _ q1 (Or.inr ⟨_, _, _, _, rfl⟩)
  · simp [armed, single, maxWhenInt]
  · intro h; rw [if_pos h] at q2; exact q2

example : ∃ tg fuel tg', runCalls [.tick 1 100 5 0] Tg.init = .ok tg ∧
      checkTimers fuel tg 112 = .ok (tg', 9223372036854775807, true) ∧
      (armed tg').due 1 = some 9223372036854775807 ∧
      ((112 : Int) ≤ 2 * (0 + 100) → 2 ≤ tg'.fired.length) ∧ ∀ x ∈ tg'.fired, x = (1, 112) :=
  C236_tick_very_late_violated 1 100 5 0 112 (by omega) (by omega) (by omega) (by omega) (by omega)

/-! ## `Sleep` -/

/-- The call is not about the timer `t`. -/
def Call.without (t : Nat) : Call → Prop
  | .start u _ _ => u ≠ t
  | .stop u => u ≠ t
  | .reset u _ _ => u ≠ t
  | .tick u _ _ _ => u ≠ t
  | .check .. => True

theorem spec_without {t : Nat} {c : Call} {a a' : Armed} {r : Option Err} {new : List (Nat × Int)}
    (hc : c.without t) (h : c.Spec a r new a') :
    (new = [] ∧ a'.due t = a.due t ∧ a'.period t = a.period t) ∨
      ∃ fuel now, c = .check fuel now ∧ Fires now a new a' := by
  cases c with
  | start u d now =>
    obtain ⟨h1, h2⟩ := h
    have hu : t ≠ u := fun e => hc e.symm
    left; refine ⟨h1, ?_⟩
    rw [h2]; split <;> simp [upd, hu]
  | stop u =>
    obtain ⟨h1, h2⟩ := h
    have hu : t ≠ u := fun e => hc e.symm
    left; refine ⟨h1, ?_⟩
    rw [h2]; simp [upd, hu]
  | reset u d now =>
    obtain ⟨h1, h2⟩ := h
    have hu : t ≠ u := fun e => hc e.symm
    left; refine ⟨h1, ?_⟩
    rw [h2]; split
    · refine ⟨by simp [upd, hu], ?_⟩
      simp only
      split <;> simp [upd, hu]
    · exact ⟨rfl, rfl⟩
  | tick u f i now =>
    obtain ⟨h1, h2, _, h4⟩ := h
    have hu : t ≠ u := fun e => hc e.symm
    left; refine ⟨h1, ?_, h4 t hu⟩
    rw [h2]; split <;> simp [upd, hu]
  | check fuel now => exact Or.inr ⟨fuel, now, rfl, h.2⟩

theorem fires_period {now : Int} {a a' : Armed} {new : List (Nat × Int)} (f : Fires now a new a') :
    a'.period = a.period := by
  induction f with
  | nil => rfl
  | once a t' w rest a' h1 h2 h3 h4 ih => rw [ih]
  | again a t' w w2 rest a' h1 h2 h3 hn h4 ih => rw [ih]

/-- A one-shot timer in one check. -/
theorem fires_shot {now : Int} {a a' : Armed} {new : List (Nat × Int)} (f : Fires now a new a') (t : Nat) :
    a.period t ≤ 0 →
    (a.due t = none → (∀ x, (t, x) ∉ new) ∧ a'.due t = none) ∧
    (∀ w, a.due t = some w → (∀ x, (t, x) ∈ new → x = now ∧ w ≤ now) ∧ (new.countP (fun y => y.1 == t)) ≤ 1 ∧
      (a'.due t = none ∨ a'.due t = some w ∧ ∀ x, (t, x) ∉ new)) := by
  induction f with
  | nil a => exact fun _ => ⟨fun h => ⟨by simp, h⟩, fun w h => ⟨by simp, by simp, Or.inr ⟨h, by simp⟩⟩⟩
  | once a t' w' rest a' h1 h2 h3 h4 ih =>
    intro hp
    by_cases ht : t = t'
    · subst ht
      obtain ⟨i1, _⟩ := ih hp
      obtain ⟨j1, j2⟩ := i1 (by simp [upd])
      refine ⟨fun h => by (rw [h1] at h; cases h), fun w h => ?_⟩
      rw [h1] at h; cases h
      refine ⟨fun x hx => ?_, ?_, Or.inl j2⟩
      · rcases List.mem_cons.mp hx with e | e
        · cases e; exact ⟨rfl, h2⟩
        · exact absurd e (j1 x)
      · rw [List.countP_cons, if_pos (by simp)]
        have : rest.countP (fun y => y.1 == t) = 0 := by
          rw [List.countP_eq_zero]
          intro y hy he
          have : y.1 = t := by simpa using he
          exact j1 y.2 (by rw [← this]; exact hy)
        omega
    · obtain ⟨i1, i2⟩ := ih hp
      have hdue : (upd a.due t' none) t = a.due t := by simp [upd, ht]
      simp only [hdue] at i1 i2
      have hmem : ∀ x, (t, x) ∈ (t', now) :: rest ↔ (t, x) ∈ rest := by
        intro x; rw [List.mem_cons]; constructor
        · rintro (e | e)
          · cases e; exact absurd rfl ht
          · exact e
        · exact Or.inr
      simp only [hmem]
      rw [List.countP_cons, if_neg (by simpa using fun e => ht e.symm)]
      exact ⟨i1, i2⟩
  | again a t' w' w2 rest a' h1 h2 h3 hn h4 ih =>
    intro hp
    have ht : t ≠ t' := fun e => by subst e; omega
    obtain ⟨i1, i2⟩ := ih hp
    have hdue : (upd a.due t' (some w2)) t = a.due t := by simp [upd, ht]
    simp only [hdue] at i1 i2
    have hmem : ∀ x, (t, x) ∈ (t', now) :: rest ↔ (t, x) ∈ rest := by
      intro x; rw [List.mem_cons]; constructor
      · rintro (e | e)
        · cases e; exact absurd rfl ht
        · exact e
      · exact Or.inr
    simp only [hmem]
    rw [List.countP_cons, if_neg (by simpa using fun e => ht e.symm)]
    exact ⟨i1, i2⟩

/-- A one-shot timer nobody calls, over a whole program. -/
theorem history_shot {t : Nat} {cs : List Call} {a a' : Armed} {new : List (Nat × Int)} (h : History cs a new a')
    (hw : ∀ c ∈ cs, c.without t) (hp : a.period t ≤ 0) :
    a'.period t = a.period t ∧ (a.due t = none → (∀ x, (t, x) ∉ new) ∧ a'.due t = none) ∧
    (∀ w, a.due t = some w → (∀ x, (t, x) ∈ new → w ≤ x) ∧ (new.countP (fun y => y.1 == t)) ≤ 1) := by
  induction h with
  | nil a => exact ⟨rfl, fun h => ⟨fun x hx => by (cases hx), h⟩, fun w h => ⟨fun x hx => by (cases hx), by simp⟩⟩
  | cons c cs a a1 a2 r new rest h1 h2 ih =>
    have ih := ih (fun d hd => hw d (List.mem_cons_of_mem _ hd))
    rcases spec_without (hw c (by simp)) h1 with ⟨e1, e2, e3⟩ | ⟨fuel, now, _, f⟩
    · subst e1
      rw [e3, e2] at ih
      exact ih hp
    · have hper := fires_period f
      rw [hper] at ih
      obtain ⟨i0, i1, i2⟩ := ih hp
      obtain ⟨f1, f2⟩ := fires_shot f t hp
      refine ⟨i0, fun hd => ?_, fun w hd => ?_⟩
      · obtain ⟨j1, j2⟩ := f1 hd
        obtain ⟨k1, k2⟩ := i1 j2
        refine ⟨fun x hx => ?_, k2⟩
        rcases List.mem_append.mp hx with e | e
        · exact j1 x e
        · exact k1 x e
      · obtain ⟨j1, j2, j3⟩ := f2 w hd
        rcases j3 with j3 | ⟨j3, j4⟩
        · obtain ⟨k1, _⟩ := i1 j3
          refine ⟨fun x hx => ?_, ?_⟩
          · rcases List.mem_append.mp hx with e | e
            · obtain ⟨q1, q2⟩ := j1 x e; omega
            · exact absurd e (k1 x)
          · rw [List.countP_append]
            have : rest.countP (fun y => y.1 == t) = 0 := by
              rw [List.countP_eq_zero]
              intro y hy he
              have : y.1 = t := by simpa using he
              exact k1 y.2 (by rw [← this]; exact hy)
            omega
        · obtain ⟨k1, k2⟩ := i2 w j3
          refine ⟨fun x hx => ?_, ?_⟩
          · rcases List.mem_append.mp hx with e | e
            · exact absurd e (j4 x)
            · exact k1 x e
          · rw [List.countP_append]
            have : new.countP (fun y => y.1 == t) = 0 := by
              rw [List.countP_eq_zero]
              intro y hy he
              have : y.1 = t := by simpa using he
              exact j4 y.2 (by rw [← this]; exact hy)
            omega

theorem runCalls_history {cs : List Call} {tg0 tg : Tg} (g : Good none tg0) (h : runCalls cs tg0 = .ok tg) :
    ∃ new, tg.fired = tg0.fired ++ new ∧ History cs (armed tg0) new (armed tg) := by
  induction cs generalizing tg0 with
  | nil => cases h; exact ⟨[], by simp, History.nil _⟩
  | cons c cs ih =>
    rw [runCalls] at h
    cases hc : c.run tg0 with
    | ok r =>
      obtain ⟨tg1, e⟩ := r
      rw [hc] at h
      obtain ⟨new, q1, q2⟩ := call_spec g hc
      obtain ⟨rest, p1, p2⟩ := ih (call_good g hc) h
      exact ⟨new ++ rest, by rw [p1, q1, List.append_assoc], History.cons _ _ _ _ _ _ _ _ q2 p2⟩
    | _ => rw [hc] at h; cases h

/-- C147: `Sleep` returns at once for a duration that is not positive; otherwise the thread is woken up at most once and
not before the duration is over.  The timer `t` is a new one, with its zero value, that no other call is about. -/
theorem C147_sleep (t : Nat) (d now : Int) (tg : Tg) (h : Reachable tg) (hnew : tg.tm t = ⟨0, 0, .unset, false⟩)
    (ds : List Call) (hds : ∀ c ∈ ds, c.without t) :
    (d ≤ 0 → sleep tg t d now = .ok none) ∧
    ∀ o, 0 < d → sleep tg t d now = .ok o → ∃ tg1, o = some tg1 ∧
      (armed tg1).due t = some (now + d) ∧
      ∀ tg2, runCalls ds tg1 = .ok tg2 → ∃ new, tg2.fired = tg.fired ++ new ∧
        (∀ x, (t, x) ∈ new → now + d ≤ x) ∧ new.countP (fun y => y.1 == t) ≤ 1 := by
  refine ⟨fun hd => by rw [sleep, if_pos hd], fun o hd hs => ?_⟩
  rw [sleep, if_neg (by omega)] at hs
  have g := reachable_good h
  cases hr : start tg t d now with
  | ok r =>
    obtain ⟨tg1, e⟩ := r
    rw [hr] at hs
    cases hs
    have he : e = none := by
      unfold start at hr
      rw [if_neg (by omega), if_neg (by rw [hnew]; simp)] at hr
      cases ha : addTimer (((tg.setStatus t .waiting).setWhen t (now + d)).setTiming t true) t with
      | ok tg2 => rw [ha] at hr; cases hr; rfl
      | _ => rw [ha] at hr; cases hr
    subst he
    obtain ⟨n1, a1, a2, a3⟩ := call_spec (c := .start t d now) g hr
    rw [if_pos rfl] at a3
    have hdue : (armed tg1).due t = some (now + d) := by rw [a3]; simp [upd]
    have hper : (armed tg1).period t ≤ 0 := by
      rw [a3]
      show (tg.tm t).period ≤ 0
      rw [hnew]; exact Int.le_refl 0
    refine ⟨tg1, rfl, hdue, fun tg2 h2 => ?_⟩
    obtain ⟨new, q1, q2⟩ := runCalls_history (call_good (c := .start t d now) g hr) h2
    refine ⟨new, by rw [q1, a1, a2, List.append_nil], ?_⟩
    exact (history_shot q2 hds hper).2.2 _ hdue
  | _ => rw [hr] at hs; cases hs

/-- A thread sleeps for 7 from 3 on, next to other timers: it is woken up at 12, the first check after 10. -/
example : ∃ tg, runCalls [.start 1 100 0, .start 2 5 0] Tg.init = .ok tg ∧
    (match sleep tg 9 7 3 with
      | .ok (some tg1) => (match runCalls [.check 9 8, .check 9 12, .check 9 200] tg1 with
        | .ok tg2 => decide (tg2.fired = [(2, 8), (9, 12), (1, 200)])
        | _ => false)
      | _ => false) = true :=
  ends_elim (by decide +kernel)

end Memar.Timer.Queue
