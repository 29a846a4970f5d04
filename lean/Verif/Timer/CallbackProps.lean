import Verif.Timer.DriverLemmas

/-!
# What holds when callbacks use the timers themselves (C61, C62, C63, C276)
-/

namespace Memar.Timer.Queue

open Memar.Timer

/-- What a program left, for concrete cases. -/
def opsEnd {S : Type} (cb : Handlers S) (os : List Op) (s : S) (P : Tg → S → Bool) : Bool :=
  match runOps cb os Tg.init s with
  | .ok (tg, s') => P tg s'
  | _ => false

theorem opsEnd_elim {S : Type} {cb : Handlers S} {os : List Op} {s : S} {P : Tg → S → Bool}
    (h : opsEnd cb os s P = true) : ∃ tg s', runOps cb os Tg.init s = .ok (tg, s') ∧ P tg s' = true := by
  unfold opsEnd at h
  split at h
  · rename_i tg s' e; exact ⟨tg, s', e, h⟩
  · cases h

/-! ## C61, C63 -/

/-- Also when callbacks start, stop, reset and tick timers (those that are due in the same look included), every
program whose calls return behaves as the specification says: each callback is of a timer armed at that very moment
whose deadline has come, the calls it makes take effect before the next timer is looked for, and nothing else arms or
disarms a timer. -/
theorem C61_callbacks_that_use_timers {S : Type} (cb : Handlers S) (os : List Op) (s s' : S) (tg : Tg)
    (h : runOps cb os Tg.init s = .ok (tg, s')) :
    Behaves cb os ⟨fun _ => none, fun _ => 0⟩ s tg.fired (armed tg) s' := by
  obtain ⟨_, new, q1, q2⟩ := runOps_spec cb os good_init h
  rw [show tg.fired = new from by rw [q1]; rfl]
  exact q2

/-- The callback of timer 1 stops timer 2 and starts timer 3 when timer 2 had been armed; the number counts callbacks. -/
def exampleHandlers : Handlers Nat := fun n t now =>
  if t = 1 then .call (.stop 2) fun r => if r = none then .call (.start 3 5 now) fun _ => .done (n + 1) else .done (n + 1)
  else .done (n + 1)

/-- Timers 1, 2 and 4 are due in one look: the callback of 1 stops 2, so 2 does not run, and starts 3, which runs later. -/
example : ∃ tg s', runOps exampleHandlers
      [.call (.start 1 10 0), .call (.start 2 12 0), .call (.start 4 20 0), .check 9 30, .check 9 40] Tg.init 0 = .ok (tg, s') ∧
    Behaves exampleHandlers
      [.call (.start 1 10 0), .call (.start 2 12 0), .call (.start 4 20 0), .check 9 30, .check 9 40]
      ⟨fun _ => none, fun _ => 0⟩ 0 tg.fired (armed tg) s' ∧ tg.fired = [(1, 30), (4, 30), (3, 40)] ∧ s' = 3 := by
  obtain ⟨tg, s', e, h⟩ := opsEnd_elim (cb := exampleHandlers) (s := 0)
    (os := [.call (.start 1 10 0), .call (.start 2 12 0), .call (.start 4 20 0), .check 9 30, .check 9 40])
    (P := fun tg s => decide (tg.fired = [(1, 30), (4, 30), (3, 40)] ∧ s = 3)) (by decide +kernel)
  exact ⟨tg, s', e, C61_callbacks_that_use_timers _ _ _ _ _ e, of_decide_eq_true h⟩

/-- The bookkeeping of the queue is exact after every program, whatever its callbacks did (`C63_bookkeeping` is about
every reachable queue). -/
theorem C63_bookkeeping_with_callbacks {S : Type} (cb : Handlers S) (os : List Op) (s s' : S) (tg : Tg)
    (h : runOps cb os Tg.init s = .ok (tg, s')) :
    HeapOrder tg.heap ∧ (tg.heap.map (·.timer)).Nodup ∧
    (∀ t, t ∈ tg.heap.map (·.timer) ↔ (armed tg).due t ≠ none ∨ (tg.tm t).status = .deleted) ∧
    tg.timersCount = tg.heap.length ∧
    tg.deletedCount = (tg.heap.filter fun b => (tg.tm b.timer).status = .deleted).length ∧
    tg.timer0When = (match tg.heap with | [] => 0 | b :: _ => b.when) :=
  C63_bookkeeping tg ⟨S, cb, os, s, s', h⟩

example : ∃ tg s', runOps exampleHandlers
      [.call (.start 1 10 0), .call (.start 2 12 0), .call (.start 4 20 0), .check 9 15] Tg.init 0 = .ok (tg, s') ∧
    tg.timersCount = tg.heap.length ∧ tg.heap.length = 2 := by
  obtain ⟨tg, s', e, h⟩ := opsEnd_elim (cb := exampleHandlers) (s := 0)
    (os := [.call (.start 1 10 0), .call (.start 2 12 0), .call (.start 4 20 0), .check 9 15])
    (P := fun tg _ => decide (tg.heap.length = 2)) (by decide +kernel)
  exact ⟨tg, s', e, (C63_bookkeeping_with_callbacks _ _ _ _ _ e).2.2.2.1, of_decide_eq_true h⟩

/-! ## C62 -/

/-- A call that makes no timer periodic and reads a clock that has reached `now`. -/
def TCall.plainFrom (now : Int) : TCall → Prop
  | .start _ _ n => now ≤ n
  | .reset _ _ n => now ≤ n
  | .stop _ => True
  | .tick .. => False

/-- All calls of a callback are plain. -/
def Act.plainFrom {S : Type} (now : Int) : Act S → Prop
  | .done _ => True
  | .call c k => c.plainFrom now ∧ ∀ r, (k r).plainFrom now

/-- Everything a program does from outside is plain. -/
def Op.plain : Op → Prop
  | .call c => c.plainFrom 0
  | .check _ now => 0 ≤ now

/-- No entry waits to be moved to a deadline that has come. -/
def Settled (now : Int) (tg : Tg) : Prop := tg.modifiedEarliest = 0 ∨ now < tg.modifiedEarliest

theorem tcall_timely {tg tg' : Tg} {c : TCall} {r : Option Err} {now : Int} (g : Good none tg) (k : Timely tg)
    (h0 : 0 ≤ now) (hc : c.plainFrom now) (h : c.toCall.run tg = .ok (tg', r)) :
    Timely tg' ∧ (Settled now tg → Settled now tg') := by
  cases c with
  | start t d n =>
    refine ⟨start_timely g k (Int.le_trans h0 hc) h, fun hm => ?_⟩
    rcases start_me h with e | e
    · unfold Settled; rw [e]; exact hm
    · exact Or.inl e
  | stop t =>
    refine ⟨stop_timely g k h, fun hm => ?_⟩
    obtain ⟨tg2, r2, q1, _, _, _, q5, _⟩ := stop_ok g t
    simp only [TCall.toCall, Call.run] at h
    rw [q1] at h; cases h
    unfold Settled; rw [q5]; exact hm
  | reset t d n =>
    have hn : now ≤ n := hc
    refine ⟨reset_timely g k (Int.le_trans h0 hn) h, fun hm => ?_⟩
    rcases reset_ok g h with ⟨_, e⟩ | ⟨_, hd, _, _, _, _, _, _, _, q⟩ | ⟨_, _, hout, _⟩
    · rw [e]; exact hm
    · rcases q with ⟨_, _, e⟩ | ⟨_, _, e⟩
      · unfold Settled; rw [e]
        unfold updateModified
        split
        · exact hm
        · right; show now < n + d; omega
      · unfold Settled; rw [e]; exact hm
    · rcases reset_me g h hout with e | e
      · unfold Settled; rw [e]; exact hm
      · exact Or.inl e
  | tick t f i n => exact absurd hc id

theorem runAct_timely {S : Type} (p : Act S) {tg tg' : Tg} {s : S} {now : Int} (g : Good none tg) (k : Timely tg)
    (hm : Settled now tg) (h0 : 0 ≤ now) (hp : p.plainFrom now) (h : runAct p tg = .ok (tg', s)) :
    Good none tg' ∧ Timely tg' ∧ Settled now tg' := by
  induction p generalizing tg with
  | done s0 => cases h; exact ⟨g, k, hm⟩
  | call c f ih =>
    obtain ⟨⟨tg1, r⟩, h1, h2⟩ := Out.bind_ok h
    obtain ⟨k1, m1⟩ := tcall_timely g k h0 hp.1 h1
    exact ih r (tcall_spec g h1).1 k1 (m1 hm) (hp.2 r) h2

theorem runAllCb_timely {S : Type} (cb : Handlers S) (now : Int) (h0 : 0 ≤ now)
    (hcb : ∀ s t, (cb s t now).plainFrom now) (fuel : Nat) {tg tg' : Tg} {s s' : S} {nw : Int} {ran : Bool}
    (g : Good none tg) (k : Timely tg) (hm : Settled now tg)
    (h : runAllCb cb fuel tg s now = .ok (tg', s', nw, ran)) :
    Good none tg' ∧ Timely tg' ∧ Quiet tg' now := by
  have step : ∀ {tg tg1 tg2 : Tg} {tw : Int} {s s2 : S}, Good none tg → Timely tg → Settled now tg →
      tg.heap.length > 0 → runTimer tg.heap.length tg now = .ok (tg1, tw) →
      runFired cb (tg1.fired.drop tg.fired.length) tg1 s = .ok (tg2, s2) →
      Good none tg2 ∧ Timely tg2 ∧ Settled now tg2 ∧ (tw ≠ 0 → Quiet tg2 now) := by
    intro tg tg1 tg2 tw s s2 g k hm hl h1 h2
    obtain ⟨q1, q2, q3, q4⟩ := runTimer_timely _ g k hm (Nat.le_refl _) (by omega) h1
    rcases (runTimer_ran h0 g (by omega) h1).2 with ⟨e0, e1, _⟩ | ⟨e0, t, e1⟩
    · rw [e1, List.drop_length] at h2
      cases h2
      exact ⟨q1, q2, q3, q4⟩
    · rw [e1, List.drop_append_of_le_length (Nat.le_refl _), List.drop_length] at h2
      obtain ⟨⟨tg3, s3⟩, h3, h2⟩ := Out.bind_ok h2
      cases h2
      obtain ⟨p1, p2, p3⟩ := runAct_timely _ q1 q2 q3 h0 (hcb s t) h3
      exact ⟨p1, p2, p3, fun hne => absurd e0 hne⟩
  induction fuel generalizing tg tg' s s' nw ran with
  | zero =>
    rw [runAllCb] at h
    split at h
    · rename_i hl
      obtain ⟨⟨tg1, tw⟩, h1, h⟩ := Out.bind_ok h
      obtain ⟨⟨tg2, s2⟩, h2, h⟩ := Out.bind_ok h
      simp only at h h2
      obtain ⟨p1, p2, p3, p4⟩ := step g k hm hl h1 h2
      split at h
      · rename_i ht; cases h; exact ⟨p1, p2, p4 ht⟩
      · cases h
    · rename_i hl
      cases h
      exact ⟨g, k, quiet_empty g (List.eq_nil_of_length_eq_zero (by omega)) _⟩
  | succ fuel ih =>
    rw [runAllCb] at h
    split at h
    · rename_i hl
      obtain ⟨⟨tg1, tw⟩, h1, h⟩ := Out.bind_ok h
      obtain ⟨⟨tg2, s2⟩, h2, h⟩ := Out.bind_ok h
      simp only at h h2
      obtain ⟨p1, p2, p3, p4⟩ := step g k hm hl h1 h2
      split at h
      · rename_i ht; cases h; exact ⟨p1, p2, p4 ht⟩
      · obtain ⟨⟨tg3, s3, nw3, ran3⟩, h3, h⟩ := Out.bind_ok h
        cases h
        exact ih p1 p2 p3 h3
    · rename_i hl
      cases h
      exact ⟨g, k, quiet_empty g (List.eq_nil_of_length_eq_zero (by omega)) _⟩

theorem checkCb_timely {S : Type} {cb : Handlers S} {now : Int} (h0 : 0 ≤ now)
    (hcb : ∀ s t, (cb s t now).plainFrom now) {fuel : Nat} {tg tg' : Tg} {s s' : S} {nw : Int} {ran : Bool}
    (g : Good none tg) (k : Timely tg) (h : checkTimersCb cb fuel tg s now = .ok (tg', s', nw, ran)) :
    Timely tg' ∧ Quiet tg' now := by
  have early : ∀ {nw ran}, checkTimers 0 tg now = .ok (tg, nw, ran) → Timely tg ∧ Quiet tg now :=
    fun hh => check_timely g k hh
  unfold checkTimersCb at h
  split at h
  · rename_i hw
    cases h
    exact early (by unfold checkTimers; rw [if_pos hw])
  · split at h
    · rename_i hw hw2
      cases h
      exact early (by unfold checkTimers; rw [if_neg hw, if_pos hw2])
    · obtain ⟨⟨tg2, s2, nw2, ran2⟩, hx, h⟩ := Out.bind_ok h
      have key : Good none tg2 ∧ Timely tg2 ∧ Quiet tg2 now := by
        split at hx
        · rcases adjust_spec g now with ⟨a1, a2⟩ | ⟨a1, _, _, a2⟩ | ⟨a1, _⟩
          · rw [a1] at hx; exact runAllCb_timely cb now h0 hcb fuel g k a2 hx
          · rw [a1] at hx
            refine runAllCb_timely (tg := { tg with modifiedEarliest := 0 }) cb now h0 hcb fuel (good_me g 0)
              ⟨k.per, Int.le_refl 0, fun b hb => ?_⟩ (Or.inl rfl) hx
            obtain ⟨b1, b2, _⟩ := k.ent b hb
            refine ⟨b1, b2, Or.inl ?_⟩
            show b.when ≤ (tg.tm b.timer).when
            rcases g.same b hb (a2 b hb) with e | e
            · rw [e]; exact Int.le_refl _
            · rw [k.per] at e; omega
          · rw [a1] at hx; cases hx
        · rename_i hl
          cases hx
          exact ⟨g, k, quiet_empty g (List.eq_nil_of_length_eq_zero (by omega)) _⟩
      obtain ⟨k1, k2, k3⟩ := key
      simp only at h
      split at h
      · obtain ⟨tg3, hc, h⟩ := Out.bind_ok h
        cases h
        refine ⟨clear_timely k1 k2 hc, ?_⟩
        unfold Quiet
        rw [(clear_armed k1 hc).2.2]
        exact k3
      · cases h
        exact ⟨k2, k3⟩

theorem runOps_timely {S : Type} (cb : Handlers S) (hcb : ∀ s t now, 0 ≤ now → (cb s t now).plainFrom now)
    (os : List Op) (hp : ∀ o ∈ os, o.plain) {tg tg' : Tg} {s s' : S} (g : Good none tg) (k : Timely tg)
    (h : runOps cb os tg s = .ok (tg', s')) : Timely tg' := by
  induction os generalizing tg s with
  | nil => cases h; exact k
  | cons o os ih =>
    obtain ⟨⟨tg1, s1, r⟩, h1, h2⟩ := Out.bind_ok h
    have ho := hp o (by simp)
    have hr := fun o ho => hp o (List.mem_cons_of_mem _ ho)
    cases o with
    | call c =>
      obtain ⟨⟨tg2, r2⟩, h3, h4⟩ := Out.bind_ok h1
      cases h4
      exact ih hr (tcall_spec g h3).1 (tcall_timely g k (Int.le_refl 0) ho h3).1 h2
    | check fuel now =>
      obtain ⟨⟨tg2, s2, nw, ran⟩, h3, h4⟩ := Out.bind_ok h1
      cases h4
      exact ih hr (checkCb_spec g h3).1 (checkCb_timely ho (fun s t => hcb s t now ho) g k h3).1 h2

/-- After a look of the scheduler at the time `now` that returns, no armed timer has a deadline at or before `now`, also
when callbacks start, stop and reset timers, as long as no timer is periodic and the clock does not go back.
Missing: queues that hold periodic timers (refuted: `C62_periodic_blocks_others_violated`) and looks that do not return. -/
theorem C62_due_timers_run_with_callbacks_partial {S : Type} (cb : Handlers S)
    (hcb : ∀ s t now, 0 ≤ now → (cb s t now).plainFrom now) (os : List Op) (hp : ∀ o ∈ os, o.plain)
    (s0 s s' : S) (tg tg' : Tg) (h : runOps cb os Tg.init s0 = .ok (tg, s)) (fuel : Nat) (now nw : Int) (ran : Bool)
    (h0 : 0 ≤ now) (hc : checkTimersCb cb fuel tg s now = .ok (tg', s', nw, ran)) (t : Nat) (w : Int)
    (hd : (armed tg').due t = some w) : now < w :=
  (checkCb_timely h0 (fun s t => hcb s t now h0) (runOps_spec cb os good_init h).1
    (runOps_timely cb hcb os hp good_init timely_init h) hc).2 t w hd

/-- The callbacks of the example are plain, and timers they start in the look are kept for a later one. -/
example : ∃ tg s tg' s' nw ran, runOps exampleHandlers [.call (.start 1 10 0), .call (.start 2 12 0), .call (.start 4 20 0)]
      Tg.init 0 = .ok (tg, s) ∧ checkTimersCb exampleHandlers 9 tg s 30 = .ok (tg', s', nw, ran) ∧
      (armed tg').due 3 = some 35 ∧ ∀ t w, (armed tg').due t = some w → 30 < w := by
  obtain ⟨tg, s, e, h⟩ := opsEnd_elim (cb := exampleHandlers) (s := 0)
    (os := [.call (.start 1 10 0), .call (.start 2 12 0), .call (.start 4 20 0)])
    (P := fun tg s => match checkTimersCb exampleHandlers 9 tg s 30 with
      | .ok r => decide ((armed r.1).due 3 = some 35)
      | _ => false) (by decide +kernel)
  split at h
  · rename_i r hr
    refine ⟨tg, s, r.1, r.2.1, r.2.2.1, r.2.2.2, e, hr, of_decide_eq_true h,
      C62_due_timers_run_with_callbacks_partial exampleHandlers ?_ _ ?_ 0 s r.2.1 tg r.1 e 9 30 r.2.2.1 r.2.2.2 (by decide) hr⟩
    · intro s t now _
      unfold exampleHandlers
      split
      · refine ⟨trivial, fun r => ?_⟩
        dsimp only
        split
        · exact ⟨Int.le_refl _, fun _ => trivial⟩
        · trivial
      · trivial
    · intro o ho
      simp only [List.mem_cons, List.not_mem_nil, or_false] at ho
      rcases ho with rfl | rfl | rfl <;> exact Int.le_refl 0
  · cases h

/-! ## C65 -/

/-- A look of the scheduler that runs a periodic timer whose callback resets that timer never returns: the entry stays at
the front of the heap, is found to be reset, and `AddTimer` locks the queue a second time. -/
theorem C65_ticker_that_resets_itself_violated {S : Type} (cb : Handlers S) (tg : Tg) (h : Reachable tg) (b : Bucket Nat)
    (hb : tg.heap[0]? = some b) (ha : (tg.tm b.timer).status = .waiting) (hp : (tg.tm b.timer).period > 0) (now : Int)
    (hw : (tg.tm b.timer).when ≤ now) (hm : tg.modifiedEarliest = 0 ∨ now < tg.modifiedEarliest)
    (hk : wakeTime tg ≠ 0) (hkn : wakeTime tg ≤ now) (s : S) (d n : Int) (hd : d ≥ 1) (f : Option Err → S)
    (hcb : cb s b.timer now = .call (.reset b.timer d n) fun r => .done (f r)) (fuel : Nat) :
    checkTimersCb cb (fuel + 1) tg s now = .deadlock := by
  have g := reachable_good h
  have h0 := (List.getElem?_eq_some_iff.mp hb).1
  obtain ⟨r1, g1⟩ := runOne_periodic g hb ha now hp
  have hti : (tg.tm b.timer).timing = true :=
    (g.timing b.timer (by simp)).mpr (mem_ids.mpr ⟨b, head_mem hb, rfl⟩)
  have hrun : runTimer tg.heap.length tg now = .ok (ranPeriodic tg b now, 0) := by
    rw [runTimer.eq_def]
    simp only [hb, ha]
    rw [if_neg (by omega), r1]; rfl
  have hreset : ∃ tg2, reset (ranPeriodic tg b now) b.timer d n = .ok (tg2, none) ∧ tg2.heap = tg.heap ∧
      ((tg2.tm b.timer).status = .modifiedEarlier ∨ (tg2.tm b.timer).status = .modifiedLater) := by
    unfold reset
    rw [if_neg (by omega)]
    have hst : ((ranPeriodic tg b now).tm b.timer).status = .waiting := by
      simp [ranPeriodic, Tg.setWhen, ha]
    have hpe : ((ranPeriodic tg b now).tm b.timer).period = (tg.tm b.timer).period := by
      simp [ranPeriodic, Tg.setWhen]
    have hti2 : ((ranPeriodic tg b now).tm b.timer).timing = true := by
      simp [ranPeriodic, Tg.setWhen, hti]
    rw [hst]
    have hper : ((((ranPeriodic tg b now).setStatus b.timer .modifying).setWhen b.timer (n + d)).tm b.timer).period ≠ 0 := by
      simp only [Tg.setWhen, Tg.setStatus, if_true]; rw [hpe]; omega
    simp only [resetTail, Bool.false_eq_true, if_false]
    rw [if_pos hper]
    split
    · rw [if_pos (by simp [Tg.setWhen, Tg.setStatus, Tg.setPeriod, hti2])]
      refine ⟨_, rfl, ?_, Or.inl ?_⟩
      · unfold updateModified; split <;> rfl
      · simp [Tg.setStatus]
    · exact ⟨_, rfl, rfl, Or.inr (by simp [Tg.setStatus])⟩
  obtain ⟨tg2, q1, q2, q3⟩ := hreset
  have hfired : runFired cb ((ranPeriodic tg b now).fired.drop tg.fired.length) (ranPeriodic tg b now) s =
      .ok (tg2, f none) := by
    show runFired cb ((tg.fired ++ [(b.timer, now)]).drop tg.fired.length) _ s = _
    rw [List.drop_append_of_le_length (Nat.le_refl _), List.drop_length]
    simp only [List.nil_append, runFired, hcb, runAct, TCall.toCall, Call.run, q1, Out.bind]
  have hstuck : ∀ fuel s', runAllCb cb fuel tg2 s' now = .deadlock := by
    intro fuel s'
    have : runTimer tg2.heap.length tg2 now = .deadlock := by
      rw [runTimer.eq_def]
      simp only [q2, hb]
      rcases q3 with e | e <;> rw [e] <;> rfl
    rw [runAllCb.eq_def]
    simp only [this]
    rw [q2, if_pos h0]; rfl
  unfold checkTimersCb
  rw [if_neg hk, if_neg (by omega), if_pos h0]
  have hadj : adjustTimers tg now = .ok tg := by unfold adjustTimers; rw [if_pos (by omega)]
  rw [hadj]
  have : runAllCb cb (fuel + 1) tg s now = .deadlock := by
    rw [runAllCb, if_pos h0, hrun]
    simp only [Out.bind, hfired]
    simp only [ne_eq, not_true_eq_false, if_false, hstuck]
  simp only [Out.bind, this]

/-- A ticker that sets its own interval anew each time: the first tick is its last, and the queue is lost with it. -/
example : ∃ tg, Reachable tg ∧
    checkTimersCb (S := Unit) (fun s t now => .call (.reset t 7 now) fun _ => .done s) 10 tg () 12 = .deadlock := by
  obtain ⟨tg, e, h⟩ := ends_elim (cs := [.start 2 40 0, .tick 1 10 10 0])
    (P := fun tg => decide (tg.heap[0]? = some (⟨1, 10⟩ : Bucket Nat) ∧ (tg.tm 1).status = .waiting ∧ (tg.tm 1).period > 0 ∧
      (tg.tm 1).when ≤ 12 ∧ tg.modifiedEarliest = 0 ∧ wakeTime tg ≠ 0 ∧ wakeTime tg ≤ 12)) (by decide +kernel)
  obtain ⟨h1, h2, h3, h4, h5, h6, h7⟩ := of_decide_eq_true h
  exact ⟨tg, reach e, C65_ticker_that_resets_itself_violated _ tg (reach e) ⟨1, 10⟩ h1 h2 h3 12 h4 (Or.inl h5) h6 h7 () 7 12
    (by decide) (fun _ => ()) rfl 9⟩

/-! ## C276: limited tickers on the queue -/

/-- Do something with the state a callback leaves. -/
def Act.map {S T : Type} (f : S → T) : Act S → Act T
  | .done s => .done (f s)
  | .call c k => .call c fun r => (k r).map f

/-- The callbacks of a program in which timer `t` is a limited ticker: its handler counts down, and stops the timer when
nothing is left, timer/tick-limit.go:46-57 (the signal it sends is in `Timer/LimitTicker.lean`).  The state is the
remaining number and the state of all other callbacks. -/
def limitHandlers {S : Type} (t : Nat) (cb : Handlers S) : Handlers (Int × S) := fun s u now =>
  if u = t then
    if s.1 > 0 then .done (s.1 - 1, s.2) else .call (.stop t) fun _ => .done s
  else (cb s.2 u now).map fun s' => (s.1, s')

/-- The call does not arm the timer `t`. -/
def TCall.leaves (t : Nat) : TCall → Prop
  | .start u _ _ | .reset u _ _ | .tick u _ _ _ => u ≠ t
  | .stop _ => True

/-- The call is not about the timer `t`. -/
def TCall.apart (t : Nat) : TCall → Prop
  | .start u _ _ | .reset u _ _ | .tick u _ _ _ | .stop u => u ≠ t

/-- All calls of the callback satisfy `P`. -/
def Act.all {S : Type} (P : TCall → Prop) : Act S → Prop
  | .done _ => True
  | .call c k => P c ∧ ∀ r, (k r).all P

/-- All calls from outside satisfy `P`. -/
def Op.all (P : TCall → Prop) : Op → Prop
  | .call c => P c
  | .check .. => True

theorem act_map_all {S T : Type} {f : S → T} {P : TCall → Prop} (p : Act S) (h : p.all P) : (p.map f).all P := by
  induction p with
  | done s => trivial
  | call c k ih => exact ⟨h.1, fun r => ih r (h.2 r)⟩

theorem acts_map {S T : Type} {f : S → T} (p : Act S) {a a' : Armed} {s' : T} (h : Acts (p.map f) a a' s') :
    ∃ s, s' = f s ∧ Acts p a a' s := by
  induction p generalizing a with
  | done s => cases h; exact ⟨s, rfl, Acts.done _ _⟩
  | call c k ih =>
    cases h with
    | call _ _ _ a1 _ r _ one more =>
      obtain ⟨s, e, m⟩ := ih r more
      exact ⟨s, e, Acts.call _ _ _ _ _ _ _ one m⟩

/-- A call that does not arm `t` leaves its deadline alone or clears it, and its period alone. -/
theorem spec_leaves {c : TCall} {t : Nat} {a a' : Armed} {r : Option Err} (h : c.toCall.Spec a r [] a')
    (hl : c.leaves t) : (a'.due t = a.due t ∨ a'.due t = none) ∧ a'.period t = a.period t ∧
      (c.apart t → a'.due t = a.due t) := by
  cases c with
  | start u d n =>
    have hu : t ≠ u := fun e => hl e.symm
    rw [h.2]; split <;> simp [upd, hu]
  | stop u =>
    rw [h.2]
    refine ⟨?_, rfl, fun hu => ?_⟩
    · by_cases e : t = u <;> simp [upd, e]
    · have hu' : t ≠ u := fun e => hu e.symm
      simp [upd, hu']
  | reset u d n =>
    have hu : t ≠ u := fun e => hl e.symm
    rw [h.2]; split
    · refine ⟨by simp [upd, hu], ?_, fun _ => by simp [upd, hu]⟩
      simp only; split <;> simp [upd, hu]
    · simp
  | tick u f i n =>
    have hu : t ≠ u := fun e => hl e.symm
    have e : a'.due t = a.due t := by rw [h.2.1]; split <;> simp [upd, hu]
    exact ⟨Or.inl e, h.2.2.2 t hu, fun _ => e⟩

theorem acts_leaves {S : Type} {p : Act S} {t : Nat} {a a' : Armed} {s : S} (h : Acts p a a' s)
    (hl : p.all (TCall.leaves t)) : (a'.due t = a.due t ∨ a'.due t = none) ∧ a'.period t = a.period t ∧
      (p.all (TCall.apart t) → a'.due t = a.due t) := by
  induction h with
  | done s a => exact ⟨Or.inl rfl, rfl, fun _ => rfl⟩
  | call c k a a1 a2 r s one more ih =>
    obtain ⟨p1, p2, p3⟩ := spec_leaves one hl.1
    obtain ⟨q1, q2, q3⟩ := ih (hl.2 r)
    refine ⟨?_, by rw [q2, p2], fun hh => by rw [q3 (hh.2 r), p3 hh.1]⟩
    rcases q1 with e | e
    · rw [e]; exact p1
    · exact Or.inr e

theorem fires_one {now : Int} {a a1 : Armed} {u : Nat} (h : Fires now a [(u, now)] a1) :
    a1.period = a.period ∧ (∃ w, a.due u = some w) ∧ (∀ t, t ≠ u → a1.due t = a.due t) ∧
      (a.period u > 0 → ∃ w, a1.due u = some w) := by
  generalize e : [(u, now)] = l at h
  cases h with
  | nil => cases e
  | once _ t w rest _ h1 h2 h3 h4 =>
    cases e
    have := fires_nil h4
    subst this
    refine ⟨rfl, ⟨w, h1⟩, fun t ht => by simp [upd, ht], fun hp => by omega⟩
  | again _ t w w' rest _ h1 h2 h3 hn h4 =>
    cases e
    have := fires_nil h4
    subst this
    exact ⟨rfl, ⟨w, h1⟩, fun t ht => by simp [upd, ht], fun _ => ⟨w', by simp [upd]⟩⟩

/-- What is known of a ticker limited to `n` after it fired `c` times. -/
structure LimitInv (t : Nat) (n : Int) (kept : Prop) (a : Armed) (left : Int) (c : Nat) : Prop where
  left : left = max 0 (n - c)
  most : (c : Int) ≤ n + 1
  armed : a.due t ≠ none → (c : Int) ≤ n ∧ a.period t > 0
  done : kept → a.due t = none → (c : Int) = n + 1

theorem looks_limit {S : Type} {t : Nat} {cb : Handlers S} {n now : Int} {kept : Prop} (hn : 1 ≤ n)
    (hl : ∀ s u now, (cb s u now).all (TCall.leaves t)) (hk : kept → ∀ s u now, (cb s u now).all (TCall.apart t))
    {a a' : Armed} {s s' : Int × S} {new : List (Nat × Int)} (h : Looks (limitHandlers t cb) now a s new a' s') :
    ∀ c, LimitInv t n kept a s.1 c → LimitInv t n kept a' s'.1 (c + new.countP (fun y => y.1 == t)) := by
  induction h with
  | nil a s => intro c i; exact i
  | cons a a1 a2 a3 s s1 s2 u rest fire does more ih =>
    intro c i
    obtain ⟨f1, ⟨w, f2⟩, f3, f4⟩ := fires_one fire
    by_cases e : u = t
    · subst e
      rw [List.countP_cons_of_pos (by simp), Nat.add_comm _ 1, ← Nat.add_assoc]
      apply ih
      obtain ⟨i1, i2⟩ := i.armed (by rw [f2]; simp)
      obtain ⟨w', f5⟩ := f4 i2
      have il := i.left
      have im := i.most
      unfold limitHandlers at does
      rw [if_pos rfl] at does
      split at does
      · rename_i hpos
        cases does
        refine ⟨?_, ?_, fun _ => ⟨?_, by rw [f1]; exact i2⟩, fun _ hd => ?_⟩
        · show s.1 - 1 = _; omega
        · omega
        · omega
        · rw [f5] at hd; cases hd
      · rename_i hpos
        cases does with
        | call _ _ _ b _ r _ one more2 =>
          cases more2
          have hb : a2.due u = none := by rw [one.2]; simp [upd]
          refine ⟨?_, ?_, fun hd => absurd hb hd, fun _ _ => ?_⟩
          · omega
          · omega
          · omega
    · rw [List.countP_cons_of_neg (by simpa using e)]
      apply ih
      unfold limitHandlers at does
      rw [if_neg e] at does
      obtain ⟨s0, e0, d0⟩ := acts_map _ does
      obtain ⟨p1, p2, p3⟩ := acts_leaves d0 (hl _ _ _)
      have f5 := f3 t (fun x => e x.symm)
      refine ⟨by rw [e0]; exact i.left, i.most, fun hd => ?_, fun kp hd => i.done kp ?_⟩
      · rw [p2, f1]
        refine i.armed fun hz => hd ?_
        rcases p1 with q | q
        · rw [q, f5, hz]
        · exact q
      · rw [← f5, ← p3 (hk kp _ _ _)]; exact hd

theorem behaves_limit {S : Type} {t : Nat} {cb : Handlers S} {n : Int} {kept : Prop} (hn : 1 ≤ n)
    (hl : ∀ s u now, (cb s u now).all (TCall.leaves t)) (hk : kept → ∀ s u now, (cb s u now).all (TCall.apart t))
    {os : List Op} {a a' : Armed} {s s' : Int × S} {new : List (Nat × Int)}
    (h : Behaves (limitHandlers t cb) os a s new a' s') (ho : ∀ o ∈ os, o.all (TCall.leaves t))
    (hko : kept → ∀ o ∈ os, o.all (TCall.apart t)) :
    ∀ c, LimitInv t n kept a s.1 c → LimitInv t n kept a' s'.1 (c + new.countP (fun y => y.1 == t)) := by
  induction h with
  | nil a s => intro c i; exact i
  | call cl os a a1 a2 r s s2 rest one more ih =>
    intro c i
    refine ih (fun o h => ho o (List.mem_cons_of_mem _ h)) (fun kp o h => hko kp o (List.mem_cons_of_mem _ h)) c ?_
    obtain ⟨p1, p2, p3⟩ := spec_leaves one (ho (.call cl) (by simp))
    refine ⟨i.left, i.most, fun hd => ?_, fun kp hd => i.done kp ?_⟩
    · rw [p2]
      refine i.armed fun hz => hd ?_
      rcases p1 with q | q
      · rw [q, hz]
      · exact q
    · rw [← p3 (hko kp (.call cl) (by simp))]; exact hd
  | check fuel now os a a1 a2 s s1 s2 new rest one more ih =>
    intro c i
    rw [List.countP_append, ← Nat.add_assoc]
    exact ih (fun o h => ho o (List.mem_cons_of_mem _ h)) (fun kp o h => hko kp o (List.mem_cons_of_mem _ h)) _
      (looks_limit hn hl hk one c i)

/-- A ticker limited to `n` ticks, on any queue and whatever is done with the other timers and by their callbacks, as
long as nobody else arms it: it fires at most `n + 1` times, the remaining number is `n` less the firings and never
negative, and when nobody else stops it either, it is disarmed exactly when it has fired `n + 1` times.
Missing: that it stops after n firings (refuted: `C276_limit_exceeded_violated`). -/
theorem C276_limit_on_the_queue_partial {S : Type} (t : Nat) (cb : Handlers S) (n : Int) (hn : 1 ≤ n)
    (hl : ∀ s u now, (cb s u now).all (TCall.leaves t)) (tg tg0 tg' : Tg) (hr : Reachable tg) (f i now0 : Int)
    (h0 : tick tg t f i now0 = .ok (tg0, none)) (os : List Op) (ho : ∀ o ∈ os, o.all (TCall.leaves t)) (s s' : S)
    (left : Int) (h : runOps (limitHandlers t cb) os tg0 (n, s) = .ok (tg', (left, s'))) :
    ∃ new, tg'.fired = tg.fired ++ new ∧ (new.countP (fun y => y.1 == t) : Int) ≤ n + 1 ∧
      left = max 0 (n - new.countP (fun y => y.1 == t)) ∧
      ((∀ s u now, (cb s u now).all (TCall.apart t)) → (∀ o ∈ os, o.all (TCall.apart t)) →
        ((armed tg').due t = none ↔ (new.countP (fun y => y.1 == t) : Int) = n + 1)) := by
  have g := reachable_good hr
  obtain ⟨g0, f0, s0⟩ := tcall_spec (c := .tick t f i now0) g h0
  obtain ⟨_, new, f1, b1⟩ := runOps_spec _ os g0 h
  have hi : i ≥ 1 := by
    unfold tick at h0
    split at h0
    · cases h0
    · omega
  have hd0 : (armed tg0).due t = some (now0 + f) := by rw [s0.2.1]; simp [upd]
  have hp0 : (armed tg0).period t = i := by rw [s0.2.2.1 rfl]; simp [upd]
  have inv0 : LimitInv t n ((∀ s u now, (cb s u now).all (TCall.apart t)) ∧ ∀ o ∈ os, o.all (TCall.apart t))
      (armed tg0) n 0 :=
    ⟨by omega, by omega, fun _ => ⟨by omega, by rw [hp0]; omega⟩, fun _ hd => by rw [hd0] at hd; cases hd⟩
  have inv := behaves_limit hn hl (fun k => k.1) b1 ho (fun k => k.2) 0 inv0
  rw [Nat.zero_add] at inv
  refine ⟨new, by rw [f1, f0], inv.most, inv.left, fun k1 k2 => ⟨inv.done ⟨k1, k2⟩, fun hc => ?_⟩⟩
  apply Classical.byContradiction
  intro hd
  have := (inv.armed hd).1
  omega

/-- A ticker limited to two ticks beside another timer: it fires three times and is disarmed. -/
example : ∃ tg0 tg', tick Tg.init 1 10 10 0 = .ok (tg0, none) ∧
    runOps (limitHandlers 1 fun (s : Unit) _ _ => .done s) [.call (.start 2 500 0), .check 9 11, .check 9 21, .check 9 31, .check 9 41]
      tg0 (2, ()) = .ok (tg', (0, ())) ∧ tg'.fired = [(1, 11), (1, 21), (1, 31)] ∧ (armed tg').due 1 = none := by
  cases h0 : tick Tg.init 1 10 10 0 with
  | ok r =>
    obtain ⟨tg0, e⟩ := r
    have key : (match tick Tg.init 1 10 10 0 with
      | .ok (tg0, e) => (match runOps (limitHandlers 1 fun (s : Unit) _ _ => .done s)
          [.call (.start 2 500 0), .check 9 11, .check 9 21, .check 9 31, .check 9 41] tg0 (2, ()) with
        | .ok (tg', s') => decide (e = none ∧ s'.1 = 0 ∧ tg'.fired = [(1, 11), (1, 21), (1, 31)])
        | _ => false)
      | _ => false) = true := by decide +kernel
    rw [h0] at key
    simp only at key
    split at key
    · rename_i tg' s' hr
      obtain ⟨e1, e2, e3⟩ := of_decide_eq_true key
      subst e1
      obtain ⟨l, u⟩ := s'
      simp only at e2; subst e2
      refine ⟨tg0, tg', rfl, hr, e3, ?_⟩
      have hos : ∀ o ∈ [Op.call (.start 2 500 0), .check 9 11, .check 9 21, .check 9 31, .check 9 41],
          o.all (TCall.apart 1) := by
        intro o ho
        simp only [List.mem_cons, List.not_mem_nil, or_false] at ho
        rcases ho with rfl | rfl | rfl | rfl | rfl
        · show (2 : Nat) ≠ 1; decide
        all_goals trivial
      have hos2 : ∀ o ∈ [Op.call (.start 2 500 0), .check 9 11, .check 9 21, .check 9 31, .check 9 41],
          o.all (TCall.leaves 1) := by
        intro o ho
        simp only [List.mem_cons, List.not_mem_nil, or_false] at ho
        rcases ho with rfl | rfl | rfl | rfl | rfl
        · show (2 : Nat) ≠ 1; decide
        all_goals trivial
      obtain ⟨new, n1, _, _, n4⟩ := C276_limit_on_the_queue_partial 1 (fun (s : Unit) _ _ => .done s) 2 (by decide)
        (fun _ _ _ => trivial) Tg.init tg0 tg' (reach (cs := []) rfl) 10 10 0 h0 _ hos2 () () 0 hr
      refine (n4 (fun _ _ _ => trivial) hos).mpr ?_
      rw [show new = tg'.fired from by rw [n1]; rfl, e3]
      decide
    · cases key
  | _ =>
    have : (match tick Tg.init 1 10 10 0 with | .ok _ => true | _ => false) = true := by decide +kernel
    rw [h0] at this; cases this

end Memar.Timer.Queue
