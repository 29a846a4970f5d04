import Verif.Timer.CallbackLemmas

/-!
# Properties of the timing queue (C21, C61-C66)

The vocabulary is that of `TimingSpec.lean`: calls, armed timers, callbacks.
-/

namespace Memar.Timer.Queue

open Memar.Timer

/-! ## Running examples -/

/-- Does the program end in a queue that `P` accepts? -/
def ends (cs : List Call) (P : Tg → Bool) : Bool :=
  match runCalls cs Tg.init with
  | .ok tg => P tg
  | _ => false

theorem ends_elim {cs : List Call} {P : Tg → Bool} (h : ends cs P = true) :
    ∃ tg, runCalls cs Tg.init = .ok tg ∧ P tg = true := by
  unfold ends at h
  split at h
  · rename_i tg e; exact ⟨tg, e, h⟩
  · cases h

def Out.isPanic {α : Type} : Out α → Bool
  | .panic => true
  | _ => false

def Out.isDeadlock {α : Type} : Out α → Bool
  | .deadlock => true
  | _ => false

theorem isPanic_elim {α : Type} {o : Out α} (h : o.isPanic = true) : o = .panic := by
  cases o <;> first | rfl | cases h

theorem isDeadlock_elim {α : Type} {o : Out α} (h : o.isDeadlock = true) : o = .deadlock := by
  cases o <;> first | rfl | cases h

/-! ## What every call keeps -/

/-! ## C61: callbacks -/

/-- Every sequence of calls that return, on any number of timers, behaves as the specification
says: a callback runs only for an armed timer whose deadline has come, so never before `now + d`
of the last `Start`/`Reset`/`Tick`, never after `Stop`, and once per arming for a one-shot timer. -/
theorem C61_callbacks_only_when_armed_and_due (cs : List Call) (tg : Tg)
    (h : runCalls cs Tg.init = .ok tg) :
    History cs ⟨fun _ => none, fun _ => 0⟩ tg.fired (armed tg) := by
  have gen : ∀ cs tg0 tg, Good none tg0 → runCalls cs tg0 = .ok tg →
      ∃ new, tg.fired = tg0.fired ++ new ∧ History cs (armed tg0) new (armed tg) := by
    intro cs
    induction cs with
    | nil => intro tg0 tg g h; cases h; exact ⟨[], by simp, History.nil _⟩
    | cons c cs ih =>
      intro tg0 tg g h
      rw [runCalls] at h
      cases hc : c.run tg0 with
      | ok r =>
        obtain ⟨tg1, e⟩ := r
        rw [hc] at h
        obtain ⟨new, q1, q2⟩ := call_spec g hc
        obtain ⟨rest, p1, p2⟩ := ih tg1 tg (call_good g hc) h
        exact ⟨new ++ rest, by rw [p1, q1, List.append_assoc], History.cons _ _ _ _ _ _ _ _ q2 p2⟩
      | _ => rw [hc] at h; cases h
  obtain ⟨new, q1, q2⟩ := gen cs Tg.init tg good_init h
  rw [show tg.fired = new from by rw [q1]; rfl]
  exact q2

example : ∃ tg, runCalls [.start 1 10 0, .start 2 5 0, .stop 2, .check 9 12] Tg.init = .ok tg ∧
    History [.start 1 10 0, .start 2 5 0, .stop 2, .check 9 12] ⟨fun _ => none, fun _ => 0⟩ tg.fired (armed tg) := by
  obtain ⟨tg, e, _⟩ := ends_elim (cs := [.start 1 10 0, .start 2 5 0, .stop 2, .check 9 12]) (P := fun _ => true) (by decide +kernel)
  exact ⟨tg, e, C61_callbacks_only_when_armed_and_due _ tg e⟩

theorem fires_due {now : Int} {a a' : Armed} {new : List (Nat × Int)} (f : Fires now a new a')
    (t : Nat) (n : Int) (hm : (t, n) ∈ new) : n = now ∧ ∃ w, a.due t = some w := by
  induction f with
  | nil => cases hm
  | once a t' w rest a' h1 h2 h3 h4 ih =>
    rcases List.mem_cons.mp hm with e | e
    · cases e; exact ⟨rfl, w, h1⟩
    · obtain ⟨q1, w', q2⟩ := ih e
      refine ⟨q1, ?_⟩
      simp only [upd] at q2
      split at q2
      · cases q2
      · exact ⟨w', q2⟩
  | again a t' w w2 rest a' h1 h2 h3 hn h4 ih =>
    rcases List.mem_cons.mp hm with e | e
    · cases e; exact ⟨rfl, w, h1⟩
    · obtain ⟨q1, w', q2⟩ := ih e
      refine ⟨q1, ?_⟩
      simp only [upd] at q2
      split at q2
      · rename_i e; rw [e]; exact ⟨w, h1⟩
      · exact ⟨w', q2⟩

/-- The callback of a stopped timer does not run, whatever the scheduler does next. -/
theorem C61_stopped_timer_is_silent (tg tg1 tg2 : Tg) (t fuel : Nat) (now : Int)
    (r r' : Option Err) (hr : Reachable tg) (h1 : Call.run tg (.stop t) = .ok (tg1, r))
    (h2 : Call.run tg1 (.check fuel now) = .ok (tg2, r')) :
    ∃ new, tg2.fired = tg.fired ++ new ∧ ∀ n, (t, n) ∉ new := by
  have g := reachable_good hr
  obtain ⟨n1, a1, a2⟩ := call_spec g h1
  obtain ⟨n2, b1, b2⟩ := call_spec (call_good g h1) h2
  refine ⟨n2, by rw [b1, a1, a2.1, List.append_nil], fun n hm => ?_⟩
  obtain ⟨_, w, hw⟩ := fires_due b2.2 t n hm
  rw [a2.2] at hw
  simp [upd] at hw

/-- Two timers are started, the second is stopped, and the first runs at its time and not before. -/
example : ∃ tg, runCalls [.start 1 10 0, .start 2 5 0, .start 3 99 0, .stop 2, .check 9 7, .check 9 12]
    Tg.init = .ok tg ∧ decide (tg.fired = [(1, 12)]) = true :=
  ends_elim (by decide +kernel)

/-! ## C62: no due timer is left waiting -/

/-- A program without periodic timers, on a clock that is not negative. -/
def Call.plain : Call → Prop
  | .start _ _ now => 0 ≤ now
  | .reset _ _ now => 0 ≤ now
  | .stop _ => True
  | .check _ now => 0 ≤ now
  | .tick .. => False

theorem runCalls_timely {cs : List Call} {tg tg' : Tg} (g : Good none tg) (k : Timely tg)
    (hp : ∀ c ∈ cs, c.plain) (h : runCalls cs tg = .ok tg') : Timely tg' := by
  induction cs generalizing tg with
  | nil => cases h; exact k
  | cons c cs ih =>
    rw [runCalls] at h
    cases hc : c.run tg with
    | ok r =>
      obtain ⟨tg1, e⟩ := r
      rw [hc] at h
      refine ih (call_good g hc) ?_ (fun c hc => hp c (List.mem_cons_of_mem _ hc)) h
      have hpl := hp c (by simp)
      cases c with
      | start t d now => exact start_timely g k hpl hc
      | stop t => exact stop_timely g k hc
      | reset t d now => exact reset_timely g k hpl hc
      | tick t f i now => exact absurd hpl id
      | check fuel now =>
        simp only [Call.run] at hc
        cases hx : checkTimers fuel tg now with
        | ok r =>
          obtain ⟨tg2, nw, ran⟩ := r
          rw [hx] at hc; cases hc
          exact (check_timely g k hx).1
        | _ => rw [hx] at hc; cases hc
    | _ => rw [hc] at h; cases h

/-- The full property: after the scheduler has looked at the queue at the time `now`, no armed
timer has a deadline at or before `now`. -/
def NoneLeftBehind (tg : Tg) : Prop :=
  ∀ fuel now tg' nw ran, checkTimers fuel tg now = .ok (tg', nw, ran) →
    ∀ t w, (armed tg').due t = some w → now < w

/-- It holds for every program without periodic timers.
Missing: queues that hold periodic timers (refuted: `C62_front_blocks_violated`,
`C62_periodic_blocks_others_violated`). -/
theorem C62_due_timers_run_partial (cs : List Call) (hp : ∀ c ∈ cs, c.plain) (tg : Tg)
    (h : runCalls cs Tg.init = .ok tg) : NoneLeftBehind tg := by
  intro fuel now tg' nw ran hc
  exact (check_timely (runCalls_good good_init h) (runCalls_timely good_init timely_init hp h) hc).2

example : ∃ tg, runCalls [.start 1 10 0, .start 2 5 0, .start 3 50 0, .check 9 12] Tg.init = .ok tg ∧
    decide (tg.fired = [(2, 12), (1, 12)]) = true :=
  ends_elim (by decide +kernel)

/-- With a periodic timer it fails: the ticking timer keeps its old place at the front of the heap,
and the one-shot timer behind it is not run although its deadline (5) has passed. -/
theorem C62_periodic_blocks_others_violated :
    ∃ cs tg, runCalls cs Tg.init = .ok tg ∧ ¬ NoneLeftBehind tg := by
  obtain ⟨tg, h1, h2⟩ := ends_elim (cs := [.tick 1 1 10 0, .start 2 5 0, .check 9 1])
    (P := fun tg => match checkTimers 9 tg 6 with
      | .ok r => decide ((armed r.1).due 2 = some 5)
      | _ => false) (by decide +kernel)
  refine ⟨_, tg, h1, fun h => ?_⟩
  split at h2
  · rename_i r hr
    have := h 9 6 r.1 r.2.1 r.2.2 hr 2 5 (of_decide_eq_true h2)
    omega
  · cases h2

/-! ## C63: bookkeeping of the queue -/

/-- In every reachable queue: the heap is ordered; it holds each timer at most once and exactly
those timers that are armed or stopped but not yet taken out; the two counters and the cached first
deadline are exact. -/
theorem C63_bookkeeping (tg : Tg) (h : Reachable tg) :
    HeapOrder tg.heap ∧ (tg.heap.map (·.timer)).Nodup ∧
    (∀ t, t ∈ tg.heap.map (·.timer) ↔
      (armed tg).due t ≠ none ∨ (tg.tm t).status = .deleted) ∧
    tg.timersCount = tg.heap.length ∧
    tg.deletedCount = (tg.heap.filter fun b => (tg.tm b.timer).status = .deleted).length ∧
    tg.timer0When = (match tg.heap with | [] => 0 | b :: _ => b.when) := by
  have g := reachable_good h
  refine ⟨g.order, g.nodup, fun t => ?_, g.cnt, ?_, ?_⟩
  · have h1 := g.inn t (by simp)
    have h2 := g.rest t (by simp)
    show t ∈ tg.ids ↔ dueOf (tg.tm t) ≠ none ∨ _
    rw [h1]
    unfold dueOf
    rcases h2 with e | e | e | e | e | e <;> rw [e] <;> simp
  · rw [g.dcnt, List.countP_eq_length_filter]; rfl
  · rw [g.t0, headWhen]
    cases tg.heap <;> rfl

example : ∃ tg, runCalls [.start 1 10 0, .start 2 5 0, .stop 1] Tg.init = .ok tg ∧
    decide (tg.heap.length = 2 ∧ tg.deletedCount = 1) = true :=
  ends_elim (by decide +kernel)

/-! ## C64: sweeping -/

theorem sweep_exact (tg : Tg) (g : Good none tg) :
    ∃ tg', clearDeleted tg = .ok tg' ∧ armed tg' = armed tg ∧ tg'.fired = tg.fired ∧
      HeapOrder tg'.heap ∧ tg'.deletedCount = 0 ∧
      (∀ t, t ∈ tg'.heap.map (·.timer) ↔ (armed tg).due t ≠ none) ∧
      (∀ b ∈ tg'.heap, (tg'.tm b.timer).period ≤ 0 → (armed tg).due b.timer = some b.when) := by
  obtain ⟨tg', r1, r2, r3, r4, r5, r6⟩ := clearDeleted_spec g
  obtain ⟨_, _, ha⟩ := clear_armed g r1
  have hst : ∀ t, t ∈ tg'.ids → (tg'.tm t).status = .waiting := by
    intro t ht
    have hin := ht
    obtain ⟨c, hc, rfl⟩ := mem_ids.mp ht
    obtain ⟨b, hb, e⟩ := List.mem_filterMap.mp (r3.mem_iff.mp hc)
    have hbt : c.timer = b.timer ∧ (tg.tm b.timer).status ≠ .deleted := by
      unfold sweepOf at e
      split at e
      · cases e
      · rename_i h; cases e; exact ⟨rfl, by rw [h]; simp⟩
      · rename_i h; cases e; exact ⟨rfl, by rw [h]; simp⟩
      · rename_i h _ _; cases e; exact ⟨rfl, h⟩
    rw [hbt.1, r4, if_pos (mem_ids.mpr ⟨b, hb, rfl⟩), sweptTm_status, if_neg hbt.2]
    rcases (good_live g).2 b hb with e | e | e | e
    · rw [e]; simp
    · exact absurd e hbt.2
    · rw [e]; simp
    · rw [e]; simp
  refine ⟨tg', r1, ha, r5, r2.order, ?_, fun t => ?_, fun b hb hp => ?_⟩
  · rw [r2.dcnt]
    have : tg'.heap.countP (isDel tg') = 0 := by
      rw [List.countP_eq_zero]
      intro c hc
      simp [isDel, hst c.timer (mem_ids.mpr ⟨c, hc, rfl⟩)]
    rw [this]; rfl
  · rw [← ha]
    show t ∈ tg'.ids ↔ dueOf (tg'.tm t) ≠ none
    constructor
    · intro ht; rw [dueOf, hst t ht]; simp
    · intro hd
      apply in_heap r2 <;> intro e <;> rw [dueOf, e] at hd <;> exact hd rfl
  · rw [← ha]
    have hs := hst b.timer (mem_ids.mpr ⟨b, hb, rfl⟩)
    show dueOf (tg'.tm b.timer) = _
    rw [dueOf, hs]
    rcases r2.same b hb hs with e | e
    · rw [e]
    · omega

/-- `clearDeletedTimers` always returns, disarms nobody, arms nobody, and leaves no stopped timer
in the heap; the timers taken out can be reset again. -/
theorem C64_sweep_exact (tg : Tg) (h : Reachable tg) :
    ∃ tg', clearDeleted tg = .ok tg' ∧ armed tg' = armed tg ∧ tg'.fired = tg.fired ∧
      HeapOrder tg'.heap ∧ tg'.deletedCount = 0 ∧
      (∀ t, t ∈ tg'.heap.map (·.timer) ↔ (armed tg).due t ≠ none) ∧
      (∀ b ∈ tg'.heap, (tg'.tm b.timer).period ≤ 0 → (armed tg).due b.timer = some b.when) :=
  sweep_exact tg (reachable_good h)

example : ∃ tg tg', Reachable tg ∧ tg.deletedCount = 1 ∧ clearDeleted tg = .ok tg' ∧ tg'.deletedCount = 0 := by
  obtain ⟨tg, e, h⟩ := ends_elim (cs := [.start 1 10 0, .start 2 5 0, .stop 1]) (P := fun tg => decide (tg.deletedCount = 1)) (by decide +kernel)
  obtain ⟨tg', h1, -, -, -, h2, -⟩ := C64_sweep_exact tg (reach e)
  exact ⟨tg, tg', reach e, of_decide_eq_true h, h1, h2⟩

/-- After the scheduler has looked at a queue that has something to wake up for, at most a quarter
of the timers in the heap are stopped ones. -/
theorem C64_check_bounds_stopped (tg tg' : Tg) (fuel : Nat) (now nw : Int) (ran : Bool)
    (h : Reachable tg) (hw : wakeTime tg ≠ 0)
    (hc : checkTimers fuel tg now = .ok (tg', nw, ran)) :
    4 * (tg'.heap.filter fun b => (tg'.tm b.timer).status = .deleted).length ≤ tg'.heap.length := by
  have g := reachable_good h
  have g' := (check_armed g hc).1
  have hd : tg'.deletedCount =
      ((tg'.heap.filter fun b => (tg'.tm b.timer).status = .deleted).length : Nat) := by
    rw [g'.dcnt, List.countP_eq_length_filter]; rfl
  unfold checkTimers at hc
  rw [if_neg hw] at hc
  split at hc
  · rename_i hq
    cases hc
    have h2 := hq.2
    unfold isCleanNeed at h2
    simp only [Decidable.not_not, decide_eq_false_iff_not] at h2
    rw [hd, g.cnt, Int.tdiv_eq_ediv_of_nonneg (by omega)] at h2
    omega
  · cases hx : (if tg.heap.length > 0 then
        (adjustTimers tg now).bind fun tg1 => runAll fuel tg1 now
        else Out.ok (tg, (0 : Int), false)) with
    | ok r =>
      obtain ⟨tg2, nw2, ran2⟩ := r
      have k1 : Good none tg2 := by
        split at hx
        · rcases adjust_spec g now with ⟨a1, _⟩ | ⟨a1, _⟩ | ⟨a1, _⟩
          · rw [a1] at hx; exact (runAll_armed fuel g hx).1
          · rw [a1] at hx
            exact (runAll_armed (tg := { tg with modifiedEarliest := 0 }) fuel (good_me g 0) hx).1
          · rw [a1] at hx; cases hx
        · cases hx; exact g
      rw [hx] at hc
      simp only [Out.bind] at hc
      split at hc
      · obtain ⟨tg3, e1, _, _, _, e5, _⟩ := sweep_exact tg2 k1
        rw [e1] at hc
        cases hc
        rw [e5] at hd
        omega
      · rename_i hle
        cases hc
        omega
    | _ => rw [hx] at hc; cases hc

example : ∃ tg, Reachable tg ∧ wakeTime tg ≠ 0 ∧ tg.deletedCount = 3 ∧
    ∃ tg' nw ran, checkTimers 5 tg 1 = .ok (tg', nw, ran) := by
  obtain ⟨tg, h1, h2⟩ := ends_elim
    (cs := [.start 1 10 0, .start 2 5 0, .start 3 7 0, .start 4 8 0, .stop 1, .stop 3, .stop 4])
    (P := fun tg => decide (wakeTime tg ≠ 0) && decide (tg.deletedCount = 3) &&
      (match checkTimers 5 tg 1 with | .ok _ => true | _ => false)) (by decide +kernel)
  simp only [Bool.and_eq_true, decide_eq_true_eq] at h2
  refine ⟨tg, reach h1, h2.1.1, h2.1.2, ?_⟩
  have := h2.2
  split at this
  · rename_i r e; exact ⟨r.1, r.2.1, r.2.2, e⟩
  · cases this

/-! ## C21: calls return -/

/-- `Stop` returns in every reachable queue. -/
theorem C21_stop_returns (tg : Tg) (h : Reachable tg) (t : Nat) :
    ∃ tg' r, Queue.stop tg t = .ok (tg', r) := by
  obtain ⟨tg', r, q, _⟩ := stop_ok (reachable_good h) t
  exact ⟨tg', r, q⟩

example : ∃ tg, runCalls [.start 1 10 0, .start 2 5 0, .stop 1] Tg.init = .ok tg ∧ ∃ tg' r, Queue.stop tg 2 = .ok (tg', r) := by
  obtain ⟨tg, e, _⟩ := ends_elim (cs := [.start 1 10 0, .start 2 5 0, .stop 1]) (P := fun _ => true) (by decide +kernel)
  exact ⟨tg, e, C21_stop_returns tg (reach e) 2⟩

/-- The full property: `Start` of a timer that is not running returns. -/
def StartReturns (tg : Tg) : Prop :=
  ∀ t d now, d ≥ 1 → (tg.tm t).status = .unset → ∃ tg', Queue.start tg t d now = .ok (tg', none)

/-- It holds when no timer in the queue has been reset and not all timers in it are stopped.
Missing: queues in which a timer was reset or all are stopped (refuted:
`C274_start_fails_violated`, `C274_start_after_all_stopped_violated`,
`C274_start_after_reset_violated` and others). -/
theorem C274_start_returns_partial (tg : Tg) (h : Reachable tg)
    (hmod : ∀ b ∈ tg.heap, (tg.tm b.timer).status ≠ .modifiedEarlier ∧
      (tg.tm b.timer).status ≠ .modifiedLater)
    (hdel : tg.heap = [] ∨ ∃ b ∈ tg.heap, (tg.tm b.timer).status ≠ .deleted) : StartReturns tg := by
  intro t d now hd hs
  have g := reachable_good h
  have ht : (tg.tm t).timing ≠ true := by
    rw [ne_eq, g.timing t (by simp)]; exact unset_out g (Or.inl hs)
  unfold Queue.start
  rw [if_neg (by omega), if_neg (by rintro (c | c); exact c hs; exact ht c)]
  have gp := start_pre g hs (now + d)
  have hout := unset_out g (Or.inl hs)
  have hsame : ∀ b ∈ tg.heap,
      (((tg.setStatus t .waiting).setWhen t (now + d)).setTiming t true).tm b.timer = tg.tm b.timer := by
    intro b hb
    rw [start_pre_tm, if_neg]
    intro e; apply hout; rw [← e, mem_ids]; exact ⟨b, hb, rfl⟩
  rcases addTimer_spec gp with ⟨tg1, tg2, r1, _⟩ | ⟨_, r2, r3⟩ | ⟨_, b, hb, r3⟩
  · rw [r1]; exact ⟨tg2, rfl⟩
  · rcases hdel with e | ⟨b, hb, e⟩
    · exact absurd e r2
    · have := r3 b hb
      rw [hsame b hb] at this
      exact absurd this e
  · rw [hsame b hb] at r3
    rcases r3 with e | e
    · exact absurd e (hmod b hb).1
    · exact absurd e (hmod b hb).2

example : ∃ tg, Reachable tg ∧ tg.heap.length = 3 ∧ StartReturns tg := by
  obtain ⟨tg, h1, h2⟩ := ends_elim
    (cs := [.start 1 10 0, .start 2 5 0, .start 3 7 0, .stop 1])
    (P := fun tg => decide (tg.heap.length = 3) &&
      tg.heap.all (fun b => decide ((tg.tm b.timer).status ≠ .modifiedEarlier ∧
        (tg.tm b.timer).status ≠ .modifiedLater)) &&
      tg.heap.any (fun b => decide ((tg.tm b.timer).status ≠ .deleted))) (by decide +kernel)
  simp only [Bool.and_eq_true, List.all_eq_true, List.any_eq_true, decide_eq_true_eq] at h2
  exact ⟨tg, reach h1, h2.1.1, C274_start_returns_partial tg (reach h1) h2.1.2 (Or.inr h2.2)⟩

/-- Whenever the queue is not empty and every timer in it was stopped, starting another panics. -/
theorem C274_start_after_all_stopped_violated (tg : Tg) (h : Reachable tg) (hne : tg.heap ≠ [])
    (hdel : ∀ b ∈ tg.heap, (tg.tm b.timer).status = .deleted) (t : Nat) (d now : Int) (hd : d ≥ 1)
    (hs : (tg.tm t).status = .unset) : Queue.start tg t d now = .panic := by
  have g := reachable_good h
  have ht : (tg.tm t).timing ≠ true := by
    rw [ne_eq, g.timing t (by simp)]; exact unset_out g (Or.inl hs)
  unfold Queue.start
  rw [if_neg (by omega), if_neg (by rintro (c | c); exact c hs; exact ht c)]
  have gp := start_pre g hs (now + d)
  have hout := unset_out g (Or.inl hs)
  have hsame : ∀ b ∈ tg.heap,
      (((tg.setStatus t .waiting).setWhen t (now + d)).setTiming t true).tm b.timer = tg.tm b.timer := by
    intro b hb
    rw [start_pre_tm, if_neg]
    intro e; apply hout; rw [← e, mem_ids]; exact ⟨b, hb, rfl⟩
  have hl : tg.heap.length ≠ 0 := fun e => hne (List.eq_nil_of_length_eq_zero e)
  have hl' : (((tg.setStatus t .waiting).setWhen t (now + d)).setTiming t true).heap.length ≠ 0 := hl
  unfold addTimer cleanTimers
  rw [if_neg hl']
  rcases cleanLoop_spec _ _ gp (Nat.le_refl _) hl with ⟨tg', b, r1, r2, r3, r4, r5⟩ | ⟨r1, _⟩ | ⟨_, b, hb, r⟩
  · exfalso
    have hb := head_mem r4
    have hb' : b ∈ tg.heap := r3.2.2.1 b hb
    apply r5
    rw [cleaned_same r2 r3 hb, hsame b hb']
    exact hdel b hb'
  · rw [show (((tg.setStatus t .waiting).setWhen t (now + d)).setTiming t true).heap = tg.heap from rfl] at r1 ⊢
    rw [r1]; rfl
  · have hb' : b ∈ tg.heap := hb
    rw [hsame b hb', hdel b hb'] at r
    rcases r with r | r <;> cases r

example : ∃ tg, runCalls [.start 1 10 0, .start 2 5 0, .stop 1, .stop 2] Tg.init = .ok tg ∧ Queue.start tg 3 7 0 = .panic := by
  obtain ⟨tg, e, h⟩ := ends_elim (cs := [.start 1 10 0, .start 2 5 0, .stop 1, .stop 2])
    (P := fun tg => decide (0 < tg.heap.length ∧ (∀ b ∈ tg.heap, (tg.tm b.timer).status = .deleted) ∧ (tg.tm 3).status = .unset)) (by decide +kernel)
  obtain ⟨h1, h2, h3⟩ := of_decide_eq_true h
  exact ⟨tg, e, C274_start_after_all_stopped_violated tg (reach e) (List.ne_nil_of_length_pos h1) h2 3 7 0 (by decide) h3⟩

/-- Whenever the first timer of the queue was reset, starting another deadlocks. -/
theorem C274_start_after_reset_violated (tg : Tg) (h : Reachable tg) (b : Bucket Nat)
    (hb : tg.heap[0]? = some b)
    (hmod : (tg.tm b.timer).status = .modifiedEarlier ∨ (tg.tm b.timer).status = .modifiedLater)
    (t : Nat) (d now : Int) (hd : d ≥ 1)
    (hs : (tg.tm t).status = .unset) : Queue.start tg t d now = .deadlock := by
  have g := reachable_good h
  have ht : (tg.tm t).timing ≠ true := by
    rw [ne_eq, g.timing t (by simp)]; exact unset_out g (Or.inl hs)
  have hout := unset_out g (Or.inl hs)
  have hl : tg.heap.length ≠ 0 := by
    have := (List.getElem?_eq_some_iff.mp hb).1; omega
  unfold Queue.start
  rw [if_neg (by omega), if_neg (by rintro (c | c); exact c hs; exact ht c)]
  have hl' : (((tg.setStatus t .waiting).setWhen t (now + d)).setTiming t true).heap.length ≠ 0 := hl
  unfold addTimer cleanTimers
  rw [if_neg hl', cleanLoop.eq_def]
  simp only
  rw [show (((tg.setStatus t .waiting).setWhen t (now + d)).setTiming t true).heap = tg.heap from rfl, hb]
  simp only
  rw [start_pre_tm, if_neg (by
    intro e; apply hout; rw [← e, mem_ids]; exact ⟨b, head_mem hb, rfl⟩)]
  rcases hmod with e | e <;> rw [e] <;> rfl

example : ∃ tg, runCalls [.start 1 10 0, .start 2 15 0, .reset 1 20 0] Tg.init = .ok tg ∧ Queue.start tg 3 7 0 = .deadlock := by
  obtain ⟨tg, e, h⟩ := ends_elim (cs := [.start 1 10 0, .start 2 15 0, .reset 1 20 0])
    (P := fun tg => match tg.heap[0]? with
      | some b => decide (((tg.tm b.timer).status = .modifiedEarlier ∨ (tg.tm b.timer).status = .modifiedLater) ∧ (tg.tm 3).status = .unset)
      | none => false) (by decide +kernel)
  split at h
  · rename_i b hb
    obtain ⟨h1, h2⟩ := of_decide_eq_true h
    exact ⟨tg, e, C274_start_after_reset_violated tg (reach e) b hb h1 3 7 0 (by decide) h2⟩
  · cases h

/-- Both kinds of queue are two calls away from the empty one. -/
theorem C274_start_violated :
    runCalls [.start 1 10 0, .stop 1, .start 2 10 0] Tg.init = .panic ∧
    runCalls [.start 1 10 0, .reset 1 5 0, .start 2 10 0] Tg.init = .deadlock :=
  ⟨isPanic_elim (by decide +kernel), isDeadlock_elim (by decide +kernel)⟩

/-! ## C65: the scheduler's check returns -/

/-- The full property: looking for timers to run at any time returns, given enough steps. -/
def CheckReturns (tg : Tg) : Prop :=
  ∀ now, ∃ fuel r, checkTimers fuel tg now = .ok r

/-- No timer is waiting to be moved to a new deadline. -/
def NoneReset (tg : Tg) : Prop :=
  ∀ t, (tg.tm t).status ≠ .modifiedEarlier ∧ (tg.tm t).status ≠ .modifiedLater

theorem noneReset_cleaned {tg tg1 : Tg} (hc : Cleaned tg tg1) (h : NoneReset tg) : NoneReset tg1 := by
  intro t
  rcases hc.1 t with e | ⟨_, _, e⟩
  · rw [e]; exact h t
  · rw [e]; simp

theorem runTimer_returns (n : Nat) (tg : Tg) (now : Int) (g : Good none tg) (k : Timely tg)
    (hr : NoneReset tg) (hn : tg.heap.length ≤ n) (hne : tg.heap.length ≠ 0) :
    ∃ tg' w, runTimer n tg now = .ok (tg', w) ∧ NoneReset tg' ∧
      (w = 0 → tg'.heap.length < tg.heap.length) := by
  induction n generalizing tg with
  | zero => omega
  | succ n ih =>
    obtain ⟨b, hb⟩ := heap_head hne
    have hbm := head_mem hb
    have hlive := (good_live g).2 b hbm
    rw [runTimer, hb]
    simp only
    rcases hlive with hs | hs | hs | hs
    · rw [hs]; simp only
      by_cases hw : (tg.tm b.timer).when > now
      · rw [if_pos hw]
        refine ⟨tg, _, rfl, hr, fun e => ?_⟩
        have := (k.ent b hbm).2.1
        omega
      · rw [if_neg hw]
        obtain ⟨hh, r0, r1, r2⟩ := runOne_once g hb hs now (by rw [k.per]; omega)
        rw [r1]
        refine ⟨_, _, rfl, fun t => ?_, fun _ => ?_⟩
        · have htm : (ranOnce tg b hh now).tm t =
              if t = b.timer then { tg.tm t with timing := false, status := .unset } else tg.tm t :=
            popped_tm tg b hh .unset tg.deletedCount t
          rw [htm]
          split
          · simp
          · exact hr t
        · show hh.length < _
          have := perm_len r0; omega
    · rw [hs]; simp only
      obtain ⟨hh, tg1, p1, p2, p3, p4⟩ := pop_deleted g hb hs
      rw [p2]; simp only
      rw [p3]
      have hheap1 : (tg1.setStatus b.timer .removed).heap = hh := by
        have : (popped tg b hh .removed (tg.deletedCount - 1)).heap = hh := rfl
        rw [← this, ← p3]
      rw [hheap1]
      have hc := cleaned_popped (dc := tg.deletedCount - 1) p1 hs g.cnt
      have hl := perm_len p1
      have k1 : Timely (popped tg b hh .removed (tg.deletedCount - 1)) := by
        refine cleaned_timely p4 hc k ?_
        rcases popped_me (s := .removed) (dc := tg.deletedCount - 1) p1 g.cnt with e | ⟨e, _⟩ <;> rw [e]
        · exact k.me
        · exact Int.le_refl 0
      by_cases h0 : hh.length = 0
      · rw [if_pos h0]
        exact ⟨_, _, rfl, noneReset_cleaned hc hr, fun e => absurd e (by omega)⟩
      · rw [if_neg h0]
        obtain ⟨tg', w, q1, q2, q3⟩ := ih _ p4 k1 (noneReset_cleaned hc hr)
          (by show hh.length ≤ n; omega) h0
        refine ⟨tg', w, q1, q2, fun e => ?_⟩
        have := q3 e
        have e2 : (popped tg b hh .removed (tg.deletedCount - 1)).heap.length = hh.length := rfl
        omega
    · exact absurd hs (hr _).1
    · exact absurd hs (hr _).2

theorem runAll_returns (fuel : Nat) (tg : Tg) (now : Int) (g : Good none tg) (k : Timely tg)
    (hm : tg.modifiedEarliest = 0 ∨ now < tg.modifiedEarliest)
    (hr : NoneReset tg) (hf : tg.heap.length ≤ fuel) :
    ∃ r, runAll fuel tg now = .ok r := by
  induction fuel generalizing tg with
  | zero =>
    rw [runAll, if_neg (by omega)]; exact ⟨_, rfl⟩
  | succ fuel ih =>
    rw [runAll]
    by_cases hl : tg.heap.length > 0
    · rw [if_pos hl]
      obtain ⟨tg1, w, q1, q2, q3⟩ := runTimer_returns _ tg now g k hr (Nat.le_refl _) (by omega)
      obtain ⟨p1, p2, p3, _⟩ := runTimer_timely _ g k hm (Nat.le_refl _) (by omega) q1
      rw [q1]
      simp only
      by_cases hw : w ≠ 0
      · rw [if_pos hw]; exact ⟨_, rfl⟩
      · rw [if_neg hw]
        have := q3 (Decidable.byContradiction hw)
        obtain ⟨r, e⟩ := ih tg1 p1 p2 p3 q2 (by omega)
        rw [e]; exact ⟨_, rfl⟩
    · rw [if_neg hl]; exact ⟨_, rfl⟩

/-- It holds for programs without periodic timers, when no timer in the queue has a pending reset
(`timerModifiedEarliest` is then only non-zero if such a timer was swept or removed since).
Missing: queues in which a timer was reset (refuted: `C65_check_after_reset_violated`,
`C65_check_violated`). -/
theorem C65_check_returns_partial (cs : List Call) (hp : ∀ c ∈ cs, c.plain) (tg : Tg)
    (h : runCalls cs Tg.init = .ok tg) (hr : NoneReset tg) (hm : tg.modifiedEarliest = 0) :
    CheckReturns tg := by
  intro now
  have g := runCalls_good good_init h
  have k := runCalls_timely good_init timely_init hp h
  refine ⟨tg.heap.length, ?_⟩
  unfold checkTimers
  split
  · exact ⟨_, rfl⟩
  · split
    · exact ⟨_, rfl⟩
    · have key : ∃ r, (if tg.heap.length > 0 then
          (adjustTimers tg now).bind fun tg1 => runAll tg.heap.length tg1 now
          else Out.ok (tg, (0 : Int), false)) = .ok r ∧ Good none r.1 := by
        split
        · obtain ⟨r, e⟩ := runAll_returns tg.heap.length tg now g k (Or.inl hm) hr (Nat.le_refl _)
          refine ⟨r, ?_, (runAll_armed _ g e).1⟩
          unfold adjustTimers
          rw [if_pos (Or.inl hm)]; exact e
        · exact ⟨_, rfl, g⟩
      obtain ⟨r, e, gr⟩ := key
      rw [e]
      simp only [Out.bind]
      split
      · obtain ⟨tg3, e3, _⟩ := clearDeleted_spec gr
        rw [e3]; exact ⟨_, rfl⟩
      · exact ⟨_, rfl⟩

example : ∃ tg, runCalls [.start 1 10 0, .start 2 5 0, .stop 1] Tg.init = .ok tg ∧
    decide (tg.heap.length = 2 ∧ tg.modifiedEarliest = 0) = true :=
  ends_elim (by decide +kernel)

/-- If a timer was reset to an earlier deadline, and that deadline has come, and any timer in the
queue is not simply waiting, the check panics: it walks over the slots its own removals cleared. -/
theorem C65_check_after_reset_violated (tg : Tg) (h : Reachable tg) (now : Int)
    (hm : tg.modifiedEarliest ≠ 0) (hn : tg.modifiedEarliest ≤ now)
    (hb : ∃ b ∈ tg.heap, (tg.tm b.timer).status ≠ .waiting) (fuel : Nat) :
    checkTimers fuel tg now = .panic := by
  have g := reachable_good h
  obtain ⟨b, hbm, hbs⟩ := hb
  have hl : tg.heap.length > 0 := List.length_pos_of_mem hbm
  have hw : wakeTime tg ≠ 0 ∧ wakeTime tg ≤ now := by
    unfold wakeTime
    split
    · exact ⟨hm, hn⟩
    · omega
  unfold checkTimers
  rw [if_neg hw.1, if_neg (by omega), if_pos hl]
  rcases adjust_spec g now with ⟨_, a2⟩ | ⟨_, _, _, a2⟩ | ⟨a1, _⟩
  · omega
  · exact absurd (a2 b hbm) hbs
  · rw [a1]; rfl

example : ∃ tg, runCalls [.start 1 10 0, .start 2 15 0, .reset 2 3 0] Tg.init = .ok tg ∧ checkTimers 9 tg 20 = .panic := by
  obtain ⟨tg, e, h⟩ := ends_elim (cs := [.start 1 10 0, .start 2 15 0, .reset 2 3 0])
    (P := fun tg => decide (tg.modifiedEarliest ≠ 0 ∧ tg.modifiedEarliest ≤ 20 ∧ ∃ b ∈ tg.heap, (tg.tm b.timer).status ≠ .waiting)) (by decide +kernel)
  obtain ⟨h1, h2, h3⟩ := of_decide_eq_true h
  exact ⟨tg, e, C65_check_after_reset_violated tg (reach e) 20 h1 h2 h3 9⟩

/-- C65 violated: both failures occur from the initial state: after one timer was moved to an earlier time and that time has come, the check panics; after it was
moved to a later time and the old time has come, the check waits for itself for ever. -/
theorem C65_check_violated :
    runCalls [.start 1 10 0, .reset 1 5 0, .check 9 7] Tg.init = .panic ∧
    runCalls [.start 1 10 0, .reset 1 15 0, .check 9 12] Tg.init = .deadlock := by
  refine ⟨?_, isDeadlock_elim (by decide +kernel)⟩
  obtain ⟨tg, h1, h2⟩ := ends_elim (cs := [.start 1 10 0, .reset 1 5 0])
    (P := fun tg => decide (tg.modifiedEarliest ≠ 0 ∧ tg.modifiedEarliest ≤ 7) &&
      tg.heap.any (fun b => decide ((tg.tm b.timer).status ≠ .waiting))) (by decide +kernel)
  simp only [Bool.and_eq_true, List.any_eq_true, decide_eq_true_eq] at h2
  have hp := C65_check_after_reset_violated tg (reach h1) 7 h2.1.1 h2.1.2 h2.2 9
  have app : ∀ (cs cs' : List Call) (t0 t1 : Tg), runCalls cs t0 = .ok t1 →
      runCalls (cs ++ cs') t0 = runCalls cs' t1 := by
    intro cs
    induction cs with
    | nil => intro cs' t0 t1 h; cases h; rfl
    | cons c cs ih =>
      intro cs' t0 t1 h
      rw [runCalls] at h
      rw [List.cons_append, runCalls]
      cases hc : c.run t0 with
      | ok r => rw [hc] at h; exact ih cs' _ _ h
      | _ => rw [hc] at h; cases h
  have := app [.start 1 10 0, .reset 1 5 0] [.check 9 7] _ _ h1
  rw [show [Call.start 1 10 0, .reset 1 5 0, .check 9 7] =
    [.start 1 10 0, .reset 1 5 0] ++ [.check 9 7] from rfl, this]
  simp only [runCalls, Call.run]
  rw [hp]; rfl

/-! ## C66: a call that fails changes nothing -/

/-- A `Start`, `Reset` or `Stop` that returns an error leaves every timer as it was. -/
theorem C66_failed_call_is_inert (tg tg' : Tg) (h : Reachable tg) (e : Err) :
    (∀ t d now, Queue.start tg t d now = .ok (tg', some e) → tg' = tg) ∧
    (∀ t d now, Queue.reset tg t d now = .ok (tg', some e) → tg' = tg) ∧
    (∀ t, Queue.stop tg t = .ok (tg', some e) → tg' = tg) := by
  have g := reachable_good h
  refine ⟨fun t d now q => ?_, fun t d now q => ?_, fun t q => ?_⟩
  · rcases start_ok g q with ⟨_, r⟩ | ⟨r, _⟩
    · exact r
    · cases r
  · rcases reset_ok g q with ⟨_, r⟩ | ⟨r, _⟩ | ⟨r, _⟩
    · exact r
    · cases r
    · cases r
  · unfold Queue.stop at q
    split at q
    · cases q; rfl
    all_goals first | cases q | (split at q <;> cases q)

example : ∃ tg tg', runCalls [.start 1 10 0, .start 2 5 0, .stop 1] Tg.init = .ok tg ∧ Queue.start tg 2 7 0 = .ok (tg', some .alreadyStarted) ∧ tg' = tg := by
  obtain ⟨tg, e, h⟩ := ends_elim (cs := [.start 1 10 0, .start 2 5 0, .stop 1])
    (P := fun tg => match Queue.start tg 2 7 0 with
      | .ok (_, some .alreadyStarted) => true
      | _ => false) (by decide +kernel)
  split at h
  · rename_i tg' h1
    exact ⟨tg, tg', e, h1, (C66_failed_call_is_inert tg tg' (reach e) .alreadyStarted).1 2 7 0 h1⟩
  · cases h

/-- A `Tick` that returns an error because the timer is already started makes the running one-shot
timer periodic. -/
theorem C200_failed_tick_violated :
    ∃ tg tg' e, Reachable tg ∧ Queue.tick tg 1 3 4 0 = .ok (tg', some e) ∧
      (tg.tm 1).period = 0 ∧ (tg'.tm 1).period = 4 ∧ (armed tg').due 1 = some 10 := by
  obtain ⟨tg, h1, h2⟩ := ends_elim (cs := [.start 1 10 0])
    (P := fun tg => match Queue.tick tg 1 3 4 0 with
      | .ok (tg', some _) => decide ((tg.tm 1).period = 0 ∧ (tg'.tm 1).period = 4 ∧
          (armed tg').due 1 = some 10)
      | _ => false) (by decide +kernel)
  split at h2
  · rename_i tg' e he
    exact ⟨tg, tg', e, reach h1, he, of_decide_eq_true h2⟩
  · cases h2

/-- The duration is what decides the error about it: exactly the durations below one nanosecond are refused, by `Start`,
`Reset` and `Tick`, whatever the state of the timer and the queue. -/
theorem C66_duration_check (tg tg' : Tg) (t : Nat) (d f i now : Int) (r : Option Err) :
    (start tg t d now = .ok (tg', r) → (r = some .negativeDuration ↔ d < 1)) ∧
    (reset tg t d now = .ok (tg', r) → (r = some .negativeDuration ↔ d < 1)) ∧
    (tick tg t f i now = .ok (tg', r) → (r = some .negativeDuration ↔ f < 1 ∨ i < 1)) := by
  have hs : ∀ (tg : Tg) (d : Int), start tg t d now = .ok (tg', r) → (r = some .negativeDuration ↔ d < 1) := by
    intro tg d h
    unfold start at h
    split at h
    · rename_i hd; cases h; simp [hd]
    · rename_i hd
      split at h
      · cases h; simp [hd]
      · cases ha : addTimer (((tg.setStatus t .waiting).setWhen t (now + d)).setTiming t true) t with
        | ok tg1 => rw [ha] at h; cases h; simp [hd]
        | _ => rw [ha] at h; cases h
  refine ⟨hs tg d, fun h => ?_, fun h => ?_⟩
  · have ht : ∀ tg b, resetTail tg t d now b = .ok (tg', r) → r = none := by
      intro tg b h
      have hb : ∀ (o : Out Tg) (f : Tg → Tg), (o.bind fun tg2 => .ok (f tg2, (none : Option Err))) = .ok (tg', r) →
          r = none := by
        intro o f h
        cases o <;> cases h
        rfl
      unfold resetTail at h
      simp only at h
      generalize (if ((tg.setWhen t (now + d)).tm t).period ≠ 0 then (tg.setWhen t (now + d)).setPeriod t d
        else tg.setWhen t (now + d)) = tg1 at h
      split at h
      · exact hb _ (fun tg2 => tg2.setStatus t .waiting) h
      · split at h
        · split at h
          · cases h; rfl
          · cases h
        · cases h; rfl
    unfold reset at h
    split at h
    · rename_i hd; cases h; simp [hd]
    · rename_i hd
      have : r = none := by
        split at h
        · exact ht _ _ h
        · exact ht _ _ h
        · exact ht _ _ h
        · exact ht _ _ h
        · exact ht _ _ h
        · split at h
          · exact ht _ _ h
          · cases h
        all_goals cases h
      rw [this]; simp [hd]
  · unfold tick at h
    split at h
    · rename_i hd; cases h; simp [hd]
    · rename_i hd
      rw [hs _ _ h]; omega

end Memar.Timer.Queue
