import Verif.Timer.CheckLemmas
import Verif.Timer.TimelyLemmas
import Verif.Timer.Callback

/-!
# Lemmas about calls, callbacks and whole programs
-/

namespace Memar.Timer.Queue

open Memar.Timer

theorem call_good {tg tg' : Tg} {c : Call} {r : Option Err} (g : Good none tg)
    (h : c.run tg = .ok (tg', r)) : Good none tg' := by
  cases c with
  | start t d now => exact start_good g h
  | stop t =>
    obtain ⟨tg2, r2, q1, q2, _⟩ := stop_ok g t
    simp only [Call.run] at h
    rw [q1] at h; cases h; exact q2
  | reset t d now =>
    rcases reset_ok g h with ⟨_, e⟩ | ⟨_, _, _, e, _⟩ | ⟨_, _, _, e, _⟩
    · rw [e]; exact g
    · exact e
    · exact e
  | tick t f i now => exact tick_good g h
  | check fuel now =>
    simp only [Call.run] at h
    cases hc : checkTimers fuel tg now with
    | ok r =>
      obtain ⟨tg1, nw, ran⟩ := r
      rw [hc] at h; cases h
      exact (check_armed g hc).1
    | _ => rw [hc] at h; cases h

theorem runCalls_good {cs : List Call} {tg tg' : Tg} (g : Good none tg)
    (h : runCalls cs tg = .ok tg') : Good none tg' := by
  induction cs generalizing tg with
  | nil => cases h; exact g
  | cons c cs ih =>
    rw [runCalls] at h
    cases hc : c.run tg with
    | ok r =>
      obtain ⟨tg1, e⟩ := r
      rw [hc] at h
      exact ih (call_good g hc) h
    | _ => rw [hc] at h; cases h

theorem call_spec {tg tg' : Tg} {c : Call} {r : Option Err} (g : Good none tg)
    (h : c.run tg = .ok (tg', r)) :
    ∃ new, tg'.fired = tg.fired ++ new ∧ c.Spec (armed tg) r new (armed tg') := by
  cases c with
  | start t d now =>
    exact ⟨[], by rw [List.append_nil]; exact start_fired g h, rfl, start_armed g h⟩
  | stop t =>
    obtain ⟨tg2, r2, q1, _, q3, _, _, _, q4, q5⟩ := stop_ok g t
    simp only [Call.run] at h
    rw [q1] at h; cases h
    refine ⟨[], by rw [List.append_nil]; exact q3, rfl, ?_⟩
    apply armed_upd
    · intro u hu; rw [q4 u hu]; exact ⟨rfl, rfl⟩
    · rcases q5 with ⟨q, e⟩ | ⟨q, _⟩ <;> rw [q]
      · exact e
      · rfl
    · rcases q5 with ⟨q, e⟩ | ⟨q, _⟩ <;> rw [q]
  | reset t d now =>
    have haux : ∀ tg2 : Tg, (∀ u, u ≠ t → dueOf (tg2.tm u) = dueOf (tg.tm u) ∧
        (tg2.tm u).period = (tg.tm u).period) → dueOf (tg2.tm t) = some (now + d) →
        (tg2.tm t).period = resetPeriod (tg.tm t) d →
        armed tg2 = ⟨upd (armed tg).due t (some (now + d)),
          if (armed tg).period t ≠ 0 then upd (armed tg).period t d else (armed tg).period⟩ := by
      intro tg2 a1 a2 a3
      rw [armed_eq, armed_eq]
      congr 1
      · funext u
        by_cases e : u = t
        · subst e; simp [upd, a2]
        · simp [upd, e, (a1 u e).1]
      · funext u
        by_cases e : u = t
        · subst e
          rw [a3]; unfold resetPeriod
          by_cases e : (tg.tm u).period = 0
          · simp [e]
          · simp [e, upd]
        · rw [(a1 u e).2]
          by_cases e' : (tg.tm t).period = 0
          · simp [e']
          · simp [e', e, upd]
    rcases reset_ok g h with ⟨e0, e⟩ | ⟨e0, _, _, _, q0, _, q2, q3, q4, q5⟩ |
      ⟨e0, hd, hout, _, tg1, hp, _, e1, e3, e4, e2⟩
    · subst e
      exact ⟨[], by simp, rfl, by rw [if_neg e0]⟩
    · refine ⟨[], by rw [List.append_nil]; exact q0, rfl, ?_⟩
      rw [if_pos e0]
      refine haux tg' (fun u hu => ?_) ?_ q4
      · rw [q2 u hu]; exact ⟨rfl, rfl⟩
      · unfold dueOf
        rcases q5 with ⟨q5, _⟩ | ⟨q5, _⟩ <;> rw [q5, q3]
    · refine ⟨[], ?_, rfl, ?_⟩
      · rw [List.append_nil, e2]
        show tg1.fired = _
        rw [e1.2.1]; exact (resetPre_same tg t d now).2.2.2.2.1
      · rw [if_pos e0]
        refine haux tg' (fun u hu => ?_) ?_ ?_
        · rw [e2, setStatus_tm, if_neg hu, added_other hu]
          have := cleaned_armed e1 u
          rw [resetPre_tm, if_neg hu] at this
          exact this
        · rw [e2, setStatus_tm, if_pos rfl, added_self, e3]; rfl
        · rw [e2, setStatus_tm, if_pos rfl, added_self, e3]
  | tick t f i now =>
    rcases tick_ok h with ⟨e0, e⟩ | ⟨e0, e⟩
    · subst e
      exact ⟨[], by simp, rfl, by rw [if_neg e0], fun c => absurd c e0, fun _ _ => rfl⟩
    · have g1 := setPeriod_good g t (p := i) (by omega)
      have ha := start_armed g1 e
      rw [setPeriod_armed] at ha
      refine ⟨[], by rw [List.append_nil, start_fired g1 e]; rfl, rfl, ?_, ?_, ?_⟩
      · rw [ha]; split <;> rfl
      · intro hr; rw [ha, if_pos hr]
      · intro u hu
        rw [ha]; split <;> simp [upd, hu]
  | check fuel now =>
    simp only [Call.run] at h
    cases hc : checkTimers fuel tg now with
    | ok r =>
      obtain ⟨tg1, nw, ran⟩ := r
      rw [hc] at h; cases h
      obtain ⟨_, new, q1, q2⟩ := check_armed g hc
      exact ⟨new, q1, rfl, q2⟩
    | _ => rw [hc] at h; cases h

theorem fires_nil {now : Int} {a a' : Armed} (f : Fires now a [] a') : a' = a := by
  generalize e : ([] : List (Nat × Int)) = l at f
  cases f with
  | nil => rfl
  | _ => cases e


theorem Out.bind_ok {α β : Type} {o : Out α} {f : α → Out β} {b : β} (h : o.bind f = .ok b) :
    ∃ a, o = .ok a ∧ f a = .ok b := by
  cases o with
  | ok a => exact ⟨a, rfl, h⟩
  | _ => cases h

theorem tcall_spec {tg tg' : Tg} {c : TCall} {r : Option Err} (g : Good none tg)
    (h : c.toCall.run tg = .ok (tg', r)) :
    Good none tg' ∧ tg'.fired = tg.fired ∧ c.toCall.Spec (armed tg) r [] (armed tg') := by
  obtain ⟨new, q1, q2⟩ := call_spec g h
  have hn : new = [] := by cases c <;> exact q2.1
  subst hn
  exact ⟨call_good g h, by rw [q1, List.append_nil], q2⟩

theorem runAct_spec {S : Type} (p : Act S) {tg tg' : Tg} {s : S} (g : Good none tg)
    (h : runAct p tg = .ok (tg', s)) :
    Good none tg' ∧ tg'.fired = tg.fired ∧ Acts p (armed tg) (armed tg') s := by
  induction p generalizing tg with
  | done s0 => cases h; exact ⟨g, rfl, Acts.done _ _⟩
  | call c k ih =>
    obtain ⟨⟨tg1, r⟩, h1, h2⟩ := Out.bind_ok h
    obtain ⟨g1, f1, s1⟩ := tcall_spec g h1
    obtain ⟨g2, f2, s2⟩ := ih r g1 h2
    exact ⟨g2, by rw [f2, f1], Acts.call _ _ _ _ _ _ _ s1 s2⟩

/-- One `runTimer` runs at most one timer. -/
theorem runTimer_one {tg tg' : Tg} {now w : Int} (g : Good none tg) (hne : tg.heap.length ≠ 0)
    (h : runTimer tg.heap.length tg now = .ok (tg', w)) :
    Good none tg' ∧ (tg'.fired = tg.fired ∧ armed tg' = armed tg ∨
      ∃ t, tg'.fired = tg.fired ++ [(t, now)] ∧ Fires now (armed tg) [(t, now)] (armed tg')) := by
  obtain ⟨q1, new, q2, q3⟩ := runTimer_armed g hne h
  refine ⟨q1, ?_⟩
  have q4 : Fires now (armed tg) new (armed tg') := by simpa using q3 [] _ (Fires.nil _)
  have hl : new = [] ∨ ∃ t, new = [(t, now)] := by
    obtain ⟨r1, _⟩ := runTimer_spec _ tg now g (Nat.le_refl _) hne
    rw [h] at r1
    cases r1 with
    | later _ b hc hb hs hw => left; rw [hc.2.1] at q2; simpa using q2
    | empty _ hc he hd => left; rw [hc.2.1] at q2; simpa using q2
    | once tg1 b hh0 hc hb hs hw hp hh =>
      right; refine ⟨b.timer, ?_⟩
      have : (ranOnce tg1 b hh0 now).fired = tg.fired ++ [(b.timer, now)] := by rw [← hc.2.1]; rfl
      rw [this] at q2; exact (List.append_cancel_left q2).symm
    | periodic tg1 b hc hb hs hw hp =>
      right; refine ⟨b.timer, ?_⟩
      have : (ranPeriodic tg1 b now).fired = tg.fired ++ [(b.timer, now)] := by rw [← hc.2.1]; rfl
      rw [this] at q2; exact (List.append_cancel_left q2).symm
  rcases hl with e | ⟨t, e⟩
  · left
    subst e
    refine ⟨by rw [q2, List.append_nil], ?_⟩
    exact fires_nil q4
  · right; subst e; exact ⟨t, q2, q4⟩

theorem runAllCb_spec {S : Type} (cb : Handlers S) (fuel : Nat) {tg tg' : Tg} {s s' : S} {now nw : Int} {ran : Bool}
    (g : Good none tg) (h : runAllCb cb fuel tg s now = .ok (tg', s', nw, ran)) :
    Good none tg' ∧ ∃ new, tg'.fired = tg.fired ++ new ∧ Looks cb now (armed tg) s new (armed tg') s' := by
  induction fuel generalizing tg tg' s s' nw ran with
  | zero =>
    rw [runAllCb] at h
    split at h
    · rename_i hl
      obtain ⟨⟨tg1, tw⟩, h1, h⟩ := Out.bind_ok h
      obtain ⟨⟨tg2, s2⟩, h2, h⟩ := Out.bind_ok h
      simp only at h h2
      obtain ⟨q1, q2⟩ := runTimer_one g (by omega) h1
      split at h
      · cases h
        rcases q2 with ⟨e1, e2⟩ | ⟨t, e1, e2⟩
        · rw [e1, List.drop_length] at h2
          cases h2
          exact ⟨q1, [], by rw [e1, List.append_nil], by rw [e2]; exact Looks.nil _ _⟩
        · rw [e1, List.drop_append_of_le_length (Nat.le_refl _), List.drop_length] at h2
          obtain ⟨⟨tg3, s3⟩, h3, h2⟩ := Out.bind_ok h2
          cases h2
          obtain ⟨g3, f3, a3⟩ := runAct_spec _ q1 h3
          exact ⟨g3, [(t, now)], by rw [f3, e1], Looks.cons _ _ _ _ _ _ _ _ _ e2 a3 (Looks.nil _ _)⟩
      · cases h
    · cases h; exact ⟨g, [], by simp, Looks.nil _ _⟩
  | succ fuel ih =>
    rw [runAllCb] at h
    split at h
    · rename_i hl
      obtain ⟨⟨tg1, tw⟩, h1, h⟩ := Out.bind_ok h
      obtain ⟨⟨tg2, s2⟩, h2, h⟩ := Out.bind_ok h
      simp only at h h2
      obtain ⟨q1, q2⟩ := runTimer_one g (by omega) h1
      have step : Good none tg2 ∧ (tg2.fired = tg.fired ∧ armed tg2 = armed tg ∧ s2 = s ∨
          ∃ t, tg2.fired = tg.fired ++ [(t, now)] ∧ ∃ a, Fires now (armed tg) [(t, now)] a ∧
            Acts (cb s t now) a (armed tg2) s2) := by
        rcases q2 with ⟨e1, e2⟩ | ⟨t, e1, e2⟩
        · rw [e1, List.drop_length] at h2
          cases h2
          exact ⟨q1, Or.inl ⟨e1, e2, rfl⟩⟩
        · rw [e1, List.drop_append_of_le_length (Nat.le_refl _), List.drop_length] at h2
          obtain ⟨⟨tg3, s3⟩, h3, h2⟩ := Out.bind_ok h2
          cases h2
          obtain ⟨g3, f3, a3⟩ := runAct_spec _ q1 h3
          exact ⟨g3, Or.inr ⟨t, by rw [f3, e1], _, e2, a3⟩⟩
      obtain ⟨g2, hstep⟩ := step
      have fin : ∀ {new}, (∃ n2, tg'.fired = tg2.fired ++ n2 ∧ new = n2) → Looks cb now (armed tg2) s2 new (armed tg') s' →
          ∃ new, tg'.fired = tg.fired ++ new ∧ Looks cb now (armed tg) s new (armed tg') s' := by
        intro new ⟨n2, e, en⟩ l
        subst en
        rcases hstep with ⟨e1, e2, e3⟩ | ⟨t, e1, a, e2, e3⟩
        · refine ⟨new, by rw [e, e1], ?_⟩
          rw [e2, e3] at l; exact l
        · exact ⟨(t, now) :: new, by rw [e, e1, List.append_assoc]; rfl, Looks.cons _ _ _ _ _ _ _ _ _ e2 e3 l⟩
      split at h
      · cases h
        exact ⟨g2, fin (new := []) ⟨[], by simp, rfl⟩ (Looks.nil _ _)⟩
      · obtain ⟨⟨tg3, s3, nw3, ran3⟩, h3, h⟩ := Out.bind_ok h
        cases h
        obtain ⟨g3, n3, f3, l3⟩ := ih g2 h3
        exact ⟨g3, fin ⟨n3, f3, rfl⟩ l3⟩
    · cases h; exact ⟨g, [], by simp, Looks.nil _ _⟩

theorem checkCb_spec {S : Type} {cb : Handlers S} {fuel : Nat} {tg tg' : Tg} {s s' : S} {now nw : Int} {ran : Bool}
    (g : Good none tg) (h : checkTimersCb cb fuel tg s now = .ok (tg', s', nw, ran)) :
    Good none tg' ∧ ∃ new, tg'.fired = tg.fired ++ new ∧ Looks cb now (armed tg) s new (armed tg') s' := by
  unfold checkTimersCb at h
  split at h
  · cases h; exact ⟨g, [], by simp, Looks.nil _ _⟩
  · split at h
    · cases h; exact ⟨g, [], by simp, Looks.nil _ _⟩
    · obtain ⟨⟨tg2, s2, nw2, ran2⟩, hx, h⟩ := Out.bind_ok h
      have key : Good none tg2 ∧ ∃ new, tg2.fired = tg.fired ++ new ∧ Looks cb now (armed tg) s new (armed tg2) s2 := by
        split at hx
        · rcases adjust_spec g now with ⟨a1, _⟩ | ⟨a1, _⟩ | ⟨a1, _⟩
          · rw [a1] at hx; exact runAllCb_spec cb fuel g hx
          · rw [a1] at hx
            exact runAllCb_spec (tg := { tg with modifiedEarliest := 0 }) cb fuel (good_me g 0) hx
          · rw [a1] at hx; cases hx
        · cases hx; exact ⟨g, [], by simp, Looks.nil _ _⟩
      obtain ⟨k1, new, k2, k3⟩ := key
      simp only at h
      split at h
      · obtain ⟨tg3, hc, h⟩ := Out.bind_ok h
        cases h
        obtain ⟨c1, c2, c3⟩ := clear_armed k1 hc
        exact ⟨c1, new, by rw [c2, k2], by rw [c3]; exact k3⟩
      · cases h
        exact ⟨k1, new, k2, k3⟩

theorem runOps_spec {S : Type} (cb : Handlers S) (os : List Op) {tg tg' : Tg} {s s' : S} (g : Good none tg)
    (h : runOps cb os tg s = .ok (tg', s')) :
    Good none tg' ∧ ∃ new, tg'.fired = tg.fired ++ new ∧ Behaves cb os (armed tg) s new (armed tg') s' := by
  induction os generalizing tg s with
  | nil => cases h; exact ⟨g, [], by simp, Behaves.nil _ _⟩
  | cons o os ih =>
    obtain ⟨⟨tg1, s1, r⟩, h1, h2⟩ := Out.bind_ok h
    cases o with
    | call c =>
      obtain ⟨⟨tg2, r2⟩, h3, h4⟩ := Out.bind_ok h1
      cases h4
      obtain ⟨g1, f1, p1⟩ := tcall_spec g h3
      obtain ⟨g2, new, f2, p2⟩ := ih g1 h2
      exact ⟨g2, new, by rw [f2, f1], Behaves.call _ _ _ _ _ _ _ _ _ p1 p2⟩
    | check fuel now =>
      obtain ⟨⟨tg2, s2, nw, ran⟩, h3, h4⟩ := Out.bind_ok h1
      cases h4
      obtain ⟨g1, n1, f1, p1⟩ := checkCb_spec g h3
      obtain ⟨g2, new, f2, p2⟩ := ih g1 h2
      exact ⟨g2, n1 ++ new, by rw [f2, f1, List.append_assoc], Behaves.check _ _ _ _ _ _ _ _ _ _ _ p1 p2⟩

theorem reachable_good {tg : Tg} (h : Reachable tg) : Good none tg := by
  obtain ⟨S, cb, os, s, s', h⟩ := h
  exact (runOps_spec cb os good_init h).1

/-! ## Callbacks that leave the queue alone -/

/-- The program of `Call`s as a program of `Op`s. -/
def Call.toOp : Call → Op
  | .start t d now => .call (.start t d now)
  | .stop t => .call (.stop t)
  | .reset t d now => .call (.reset t d now)
  | .tick t f i now => .call (.tick t f i now)
  | .check fuel now => .check fuel now

theorem runFired_idle (l : List (Nat × Int)) (tg : Tg) : runFired (S := Unit) (fun s _ _ => .done s) l tg () = .ok (tg, ()) := by
  induction l generalizing tg with
  | nil => rfl
  | cons x l ih => exact ih tg

theorem runAllCb_idle (fuel : Nat) (tg : Tg) (now : Int) :
    runAllCb (S := Unit) (fun s _ _ => .done s) fuel tg () now =
      (runAll fuel tg now).bind fun r => .ok (r.1, (), r.2.1, r.2.2) := by
  induction fuel generalizing tg with
  | zero =>
    rw [runAllCb, runAll]
    split
    · cases runTimer tg.heap.length tg now with
      | ok r =>
        obtain ⟨tg1, tw⟩ := r
        simp only [Out.bind, runFired_idle]
        split <;> rfl
      | _ => rfl
    · rfl
  | succ fuel ih =>
    rw [runAllCb, runAll]
    split
    · cases runTimer tg.heap.length tg now with
      | ok r =>
        obtain ⟨tg1, tw⟩ := r
        simp only [Out.bind, runFired_idle]
        split
        · rfl
        · rw [ih]
          cases runAll fuel tg1 now <;> rfl
      | _ => rfl
    · rfl

theorem checkCb_idle (fuel : Nat) (tg : Tg) (now : Int) :
    checkTimersCb (S := Unit) (fun s _ _ => .done s) fuel tg () now =
      (checkTimers fuel tg now).bind fun r => .ok (r.1, (), r.2.1, r.2.2) := by
  have tail : ∀ o : Out (Tg × Int × Bool),
      (o.bind fun r => (.ok (r.1, (), r.2.1, r.2.2) : Out (Tg × Unit × Int × Bool))).bind (fun (tg2, s2, nw, ran) =>
        if tg2.deletedCount > ((tg2.heap.length / 4 : Nat) : Int) then
          (clearDeleted tg2).bind fun tg3 => .ok (tg3, s2, nw, ran)
        else .ok (tg2, s2, nw, ran)) =
      (o.bind fun (tg2, nw, ran) =>
        if tg2.deletedCount > ((tg2.heap.length / 4 : Nat) : Int) then
          (clearDeleted tg2).bind fun tg3 => .ok (tg3, nw, ran)
        else .ok (tg2, nw, ran)).bind fun r => .ok (r.1, (), r.2.1, r.2.2) := by
    intro o
    cases o with
    | ok r =>
      obtain ⟨tg2, nw, ran⟩ := r
      simp only [Out.bind]
      split
      · cases clearDeleted tg2 <;> rfl
      · rfl
    | _ => rfl
  unfold checkTimersCb checkTimers
  split
  · rfl
  · split
    · rfl
    · rw [← tail]
      congr 1
      split
      · cases adjustTimers tg now with
        | ok tg1 => exact runAllCb_idle fuel tg1 now
        | _ => rfl
      · rfl

theorem runOps_idle (cs : List Call) (tg : Tg) :
    runOps (S := Unit) (fun s _ _ => .done s) (cs.map Call.toOp) tg () =
      (runCalls cs tg).bind fun r => .ok (r, ()) := by
  induction cs generalizing tg with
  | nil => rfl
  | cons c cs ih =>
    rw [List.map_cons, runOps, runCalls]
    have h1 : c.toOp.run (S := Unit) (fun s _ _ => .done s) tg () = (c.run tg).bind fun r => .ok (r.1, (), r.2) := by
      cases c with
      | check fuel now =>
        simp only [Call.toOp, Op.run, Call.run, checkCb_idle]
        cases checkTimers fuel tg now <;> rfl
      | _ => rfl
    rw [h1]
    cases c.run tg with
    | ok r => exact ih r.1
    | _ => rfl

theorem reach {cs : List Call} {tg : Tg} (h : runCalls cs Tg.init = .ok tg) : Reachable tg :=
  ⟨Unit, fun s _ _ => .done s, cs.map Call.toOp, (), (), by rw [runOps_idle, h]; rfl⟩

end Memar.Timer.Queue
