import Verif.Timer.Driver
import Verif.Timer.TimingProps

/-!
# Lemmas about the answer of `CheckTimers`
-/

namespace Memar.Timer.Queue

open Memar.Timer

/-! ## Whether a timer was run -/

theorem runTimer_ran {tg tg' : Tg} {now w : Int} (h0 : 0 ≤ now) (g : Good none tg) (hne : tg.heap.length ≠ 0)
    (h : runTimer tg.heap.length tg now = .ok (tg', w)) :
    Good none tg' ∧ ((w ≠ 0 ∧ tg'.fired = tg.fired ∧
        ((now < w ∧ ∃ b, tg'.heap[0]? = some b ∧ (tg'.tm b.timer).status = .waiting ∧ (tg'.tm b.timer).when = w) ∨
          (w = -1 ∧ tg'.heap = []))) ∨
      (w = 0 ∧ ∃ t, tg'.fired = tg.fired ++ [(t, now)])) := by
  obtain ⟨r1, r2⟩ := runTimer_spec _ tg now g (Nat.le_refl _) hne
  refine ⟨r2 _ _ h, ?_⟩
  rw [h] at r1
  cases r1 with
  | later _ b hc hb hs hw =>
    exact Or.inl ⟨by omega, hc.2.1, Or.inl ⟨by omega, b, hb, hs, rfl⟩⟩
  | once tg1 b h hc hb hs hw hp hh => exact Or.inr ⟨rfl, b.timer, by rw [← hc.2.1]; rfl⟩
  | periodic tg1 b hc hb hs hw hp => exact Or.inr ⟨rfl, b.timer, by rw [← hc.2.1]; rfl⟩
  | empty _ hc he hd => exact Or.inl ⟨by omega, hc.2.1, Or.inr ⟨rfl, he⟩⟩

theorem runAll_ran (fuel : Nat) {tg tg' : Tg} {now nw : Int} {ran : Bool} (h0 : 0 ≤ now) (g : Good none tg)
    (h : runAll fuel tg now = .ok (tg', nw, ran)) :
    Good none tg' ∧ (∃ new, tg'.fired = tg.fired ++ new ∧ (ran = true ↔ new ≠ [])) ∧
      ((now < nw ∧ ∃ b, tg'.heap[0]? = some b ∧ (tg'.tm b.timer).status = .waiting ∧ (tg'.tm b.timer).when = nw) ∨
          (nw = 0 ∧ tg'.heap = [])) := by
  induction fuel generalizing tg tg' nw ran with
  | zero =>
    rw [runAll] at h
    split at h
    · cases hr : runTimer tg.heap.length tg now with
      | ok r =>
        obtain ⟨tg1, tw⟩ := r
        rw [hr] at h
        simp only at h
        obtain ⟨q0, q⟩ := runTimer_ran h0 g (by omega) hr
        split at h
        · rename_i htw
          rcases q with ⟨_, q2, q3⟩ | ⟨q1, _⟩
          · cases h
            refine ⟨q0, ⟨[], by rw [q2]; simp, by simp⟩, ?_⟩
            rcases q3 with ⟨q4, q5⟩ | ⟨q4, q5⟩
            · left; rw [if_pos (by omega)]; exact ⟨q4, q5⟩
            · right; rw [if_neg (by omega)]; exact ⟨rfl, q5⟩
          · exact absurd q1 htw
        · cases h
      | _ => rw [hr] at h; cases h
    · cases h
      exact ⟨g, ⟨[], by simp, by simp⟩, Or.inr ⟨rfl, List.eq_nil_of_length_eq_zero (by omega)⟩⟩
  | succ fuel ih =>
    rw [runAll] at h
    split at h
    · cases hr : runTimer tg.heap.length tg now with
      | ok r =>
        obtain ⟨tg1, tw⟩ := r
        rw [hr] at h
        simp only at h
        obtain ⟨q0, q⟩ := runTimer_ran h0 g (by omega) hr
        split at h
        · rename_i htw
          rcases q with ⟨_, q2, q3⟩ | ⟨q1, _⟩
          · cases h
            refine ⟨q0, ⟨[], by rw [q2]; simp, by simp⟩, ?_⟩
            rcases q3 with ⟨q4, q5⟩ | ⟨q4, q5⟩
            · left; rw [if_pos (by omega)]; exact ⟨q4, q5⟩
            · right; rw [if_neg (by omega)]; exact ⟨rfl, q5⟩
          · exact absurd q1 htw
        · rename_i htw
          cases hr2 : runAll fuel tg1 now with
          | ok r2 =>
            obtain ⟨tg2, nw2, ran2⟩ := r2
            rw [hr2] at h
            simp only [Out.bind, Out.ok.injEq, Prod.mk.injEq] at h
            obtain ⟨p1, ⟨new, p2, _⟩, p4⟩ := ih q0 hr2
            rcases q with ⟨q1, _⟩ | ⟨_, t, q2⟩
            · exact absurd q1 htw
            · obtain ⟨e1, e2, e3⟩ := h
              subst e1; subst e2; subst e3
              refine ⟨p1, ⟨(t, now) :: new, by rw [p2, q2]; simp, by simp⟩, p4⟩
          | _ => rw [hr2] at h; cases h
      | _ => rw [hr] at h; cases h
    · cases h
      exact ⟨g, ⟨[], by simp, by simp⟩, Or.inr ⟨rfl, List.eq_nil_of_length_eq_zero (by omega)⟩⟩

/-- Removing the deleted timers keeps a waiting timer. -/
theorem clear_waiting {tg tg' : Tg} (g : Good none tg) (h : clearDeleted tg = .ok tg') {t : Nat}
    (hs : (tg.tm t).status = .waiting) : tg'.tm t = tg.tm t := by
  obtain ⟨tg2, r1, _, _, r4, _, _⟩ := clearDeleted_spec g
  rw [r1] at h; cases h
  rw [r4]
  split
  · exact sweptTm_other _ (by rw [hs]; simp) (by rw [hs]; simp) (by rw [hs]; simp)
  · rfl

/-- What `CheckTimers` answers, on any consistent queue. -/
theorem check_answer {fuel : Nat} {tg tg' : Tg} {now nw : Int} {ran : Bool} (h0 : 0 ≤ now) (g : Good none tg)
    (h : checkTimers fuel tg now = .ok (tg', nw, ran)) :
    (∃ new, tg'.fired = tg.fired ++ new ∧ (ran = true ↔ new ≠ [])) ∧
    ((nw = wakeTime tg ∧ tg' = tg ∧ (wakeTime tg = 0 ∨ now < wakeTime tg)) ∨
      (now < nw ∧ ∃ t, (armed tg').due t = some nw) ∨
      (nw = 0 ∧ ∀ t, (armed tg').due t = none)) := by
  have hnone : ∀ {tg : Tg}, Good none tg → tg.heap = [] → ∀ t, (armed tg).due t = none := by
    intro tg g he t
    cases hd : (armed tg).due t with
    | none => rfl
    | some w =>
      obtain ⟨⟨c, hc, _⟩, _⟩ := due_in_heap g hd
      rw [he] at hc; cases hc
  unfold checkTimers at h
  split at h
  · rename_i hw
    cases h
    exact ⟨⟨[], by simp, by simp⟩, Or.inl ⟨hw.symm, rfl, Or.inl hw⟩⟩
  · split at h
    · rename_i hw
      cases h
      exact ⟨⟨[], by simp, by simp⟩, Or.inl ⟨rfl, rfl, Or.inr hw.1⟩⟩
    · have key : ∀ tg2 nw2 ran2, (if tg.heap.length > 0 then
          (adjustTimers tg now).bind fun tg1 => runAll fuel tg1 now
          else Out.ok (tg, (0 : Int), false)) = .ok (tg2, nw2, ran2) →
          Good none tg2 ∧ (∃ new, tg2.fired = tg.fired ++ new ∧ (ran2 = true ↔ new ≠ [])) ∧
          ((now < nw2 ∧ ∃ b, tg2.heap[0]? = some b ∧ (tg2.tm b.timer).status = .waiting ∧
              (tg2.tm b.timer).when = nw2) ∨ (nw2 = 0 ∧ tg2.heap = [])) := by
        intro tg2 nw2 ran2 hh
        split at hh
        · rcases adjust_spec g now with ⟨a1, _⟩ | ⟨a1, _⟩ | ⟨a1, _⟩
          · rw [a1] at hh; exact runAll_ran fuel h0 g hh
          · rw [a1] at hh
            exact runAll_ran (tg := { tg with modifiedEarliest := 0 }) fuel h0 (good_me g 0) hh
          · rw [a1] at hh; cases hh
        · cases hh
          exact ⟨g, ⟨[], by simp, by simp⟩, Or.inr ⟨rfl, List.eq_nil_of_length_eq_zero (by omega)⟩⟩
      have due_of : ∀ {tg : Tg} {t : Nat}, (tg.tm t).status = .waiting → (armed tg).due t = some (tg.tm t).when := by
        intro tg t hs; rw [armed_eq]; simp [dueOf, hs]
      cases hx : (if tg.heap.length > 0 then
          (adjustTimers tg now).bind fun tg1 => runAll fuel tg1 now
          else Out.ok (tg, (0 : Int), false)) with
      | ok r =>
        obtain ⟨tg2, nw2, ran2⟩ := r
        obtain ⟨k1, ⟨new, k2, k3⟩, k4⟩ := key _ _ _ hx
        rw [hx] at h
        simp only [Out.bind] at h
        split at h
        · cases hc : clearDeleted tg2 with
          | ok tg3 =>
            rw [hc] at h
            cases h
            obtain ⟨c1, c2, c3⟩ := clear_armed k1 hc
            refine ⟨⟨new, by rw [c2, k2], k3⟩, Or.inr ?_⟩
            rcases k4 with ⟨k5, b, _, k6, k7⟩ | ⟨k5, k6⟩
            · left; exact ⟨k5, b.timer, by rw [c3, due_of k6, k7]⟩
            · right; exact ⟨k5, fun t => by rw [c3]; exact hnone k1 k6 t⟩
          | _ => rw [hc] at h; cases h
        · cases h
          refine ⟨⟨new, k2, k3⟩, Or.inr ?_⟩
          rcases k4 with ⟨k5, b, _, k6, k7⟩ | ⟨k5, k6⟩
          · left; exact ⟨k5, b.timer, by rw [due_of k6, k7]⟩
          · right; exact ⟨k5, fun t => hnone k1 k6 t⟩
      | _ => rw [hx] at h; cases h

/-! ## The next deadline, without resets -/

/-- Every armed timer is due at `w` or later. -/
def NotBefore (tg : Tg) (w : Int) : Prop := ∀ t d, (armed tg).due t = some d → w ≤ d

theorem notBefore_head {tg : Tg} {b : Bucket Nat} {w : Int} (g : Good none tg) (k : Timely tg)
    (hm : tg.modifiedEarliest = 0) (hb : tg.heap[0]? = some b) (hw : w ≤ b.when) : NotBefore tg w := by
  intro t d hd
  have q := quiet_of_bound (now := w - 1) g k (head_bound g hb (by omega)) (Or.inl hm) t d hd
  omega

theorem runTimer_first (n : Nat) {tg tg' : Tg} {now w : Int} (g : Good none tg) (k : Timely tg)
    (hm : tg.modifiedEarliest = 0) (hn : tg.heap.length ≤ n) (hne : tg.heap.length ≠ 0)
    (h : runTimer n tg now = .ok (tg', w)) :
    tg'.modifiedEarliest = 0 ∧ (0 < w → NotBefore tg' w) := by
  induction n generalizing tg with
  | zero => omega
  | succ n ih =>
    obtain ⟨b, hb⟩ := heap_head hne
    have hbm := head_mem hb
    rw [runTimer, hb] at h
    simp only at h
    cases hs : (tg.tm b.timer).status with
    | waiting =>
      rw [hs] at h
      simp only at h
      have hsame : b.when = (tg.tm b.timer).when := by
        rcases g.same b hbm hs with e | e
        · exact e
        · rw [k.per] at e; omega
      split at h
      · cases h
        exact ⟨hm, fun _ => notBefore_head g k hm hb (by omega)⟩
      · obtain ⟨hh, r0, r1, r2⟩ := runOne_once g hb hs now (by rw [k.per]; omega)
        rw [r1] at h
        simp only [Out.bind, Out.ok.injEq, Prod.mk.injEq] at h
        obtain ⟨h1, h2⟩ := h
        subst h1
        refine ⟨?_, fun e => by omega⟩
        show (if tg.timersCount - 1 = 0 then 0 else tg.modifiedEarliest) = 0
        split
        · rfl
        · exact hm
    | deleted =>
      rw [hs] at h
      simp only at h
      obtain ⟨hh, tg1, p1, p2, p3, p4⟩ := pop_deleted g hb hs
      rw [p2] at h; simp only at h
      rw [p3] at h
      have hheap1 : (tg1.setStatus b.timer .removed).heap = hh := by
        have : (popped tg b hh .removed (tg.deletedCount - 1)).heap = hh := rfl
        rw [← this, ← p3]
      rw [hheap1] at h
      have hc := cleaned_popped (dc := tg.deletedCount - 1) p1 hs g.cnt
      have hm1 : (popped tg b hh .removed (tg.deletedCount - 1)).modifiedEarliest = 0 := by
        show (if tg.timersCount - 1 = 0 then 0 else tg.modifiedEarliest) = 0
        split
        · rfl
        · exact hm
      have k1 : Timely (popped tg b hh .removed (tg.deletedCount - 1)) :=
        cleaned_timely p4 hc k (by rw [hm1]; exact Int.le_refl 0)
      have hl := perm_len p1
      split at h
      · cases h
        exact ⟨hm1, fun e => by omega⟩
      · rename_i h0
        exact ih p4 k1 hm1 (by show hh.length ≤ n; omega) h0 h
    | modifiedEarlier => rw [hs] at h; cases h
    | modifiedLater => rw [hs] at h; cases h
    | modifying => rw [hs] at h; cases h
    | unset => rw [hs] at h; cases h
    | removed => rw [hs] at h; cases h
    | running => rw [hs] at h; cases h
    | removing => rw [hs] at h; cases h
    | moving => rw [hs] at h; cases h

theorem runAll_first (fuel : Nat) {tg tg' : Tg} {now nw : Int} {ran : Bool} (g : Good none tg)
    (k : Timely tg) (hm : tg.modifiedEarliest = 0) (h : runAll fuel tg now = .ok (tg', nw, ran)) :
    tg'.modifiedEarliest = 0 ∧ NotBefore tg' nw := by
  have hz : ∀ {tg : Tg}, Good none tg → tg.heap = [] → ∀ w, NotBefore tg w := by
    intro tg g he w t d hd
    obtain ⟨⟨c, hcm, _⟩, _⟩ := due_in_heap g hd
    rw [he] at hcm; cases hcm
  have last : ∀ {tg tg1 : Tg} {tw : Int}, Good none tg → Timely tg → tg.modifiedEarliest = 0 →
      tg.heap.length > 0 → runTimer tg.heap.length tg now = .ok (tg1, tw) →
      Good none tg1 ∧ Timely tg1 ∧ tg1.modifiedEarliest = 0 ∧
        NotBefore tg1 (if tw > 0 then tw else 0) := by
    intro tg tg1 tw g k hm hl hr
    obtain ⟨q1, q2, _, _⟩ := runTimer_timely _ g k (Or.inl hm) (Nat.le_refl _) (by omega) hr
    obtain ⟨f1, f2⟩ := runTimer_first _ g k hm (Nat.le_refl _) (by omega) hr
    refine ⟨q1, q2, f1, ?_⟩
    split
    · exact f2 (by omega)
    · intro t d hd
      obtain ⟨⟨c, hcm, e⟩, e2⟩ := due_in_heap q1 hd
      have := (q2.ent c hcm).2.1
      rw [e, e2] at this
      omega
  induction fuel generalizing tg tg' nw ran with
  | zero =>
    rw [runAll] at h
    split at h
    · rename_i hl
      cases hr : runTimer tg.heap.length tg now with
      | ok r =>
        obtain ⟨tg1, tw⟩ := r
        obtain ⟨_, _, f1, f2⟩ := last g k hm hl hr
        rw [hr] at h
        simp only at h
        split at h
        · cases h; exact ⟨f1, f2⟩
        · cases h
      | _ => rw [hr] at h; cases h
    · cases h
      exact ⟨hm, hz g (List.eq_nil_of_length_eq_zero (by omega)) _⟩
  | succ fuel ih =>
    rw [runAll] at h
    split at h
    · rename_i hl
      cases hr : runTimer tg.heap.length tg now with
      | ok r =>
        obtain ⟨tg1, tw⟩ := r
        obtain ⟨q1, q2, f1, f2⟩ := last g k hm hl hr
        rw [hr] at h
        simp only at h
        split at h
        · cases h; exact ⟨f1, f2⟩
        · cases hr2 : runAll fuel tg1 now with
          | ok r2 =>
            obtain ⟨tg2, nw2, ran2⟩ := r2
            rw [hr2] at h
            simp only [Out.bind, Out.ok.injEq, Prod.mk.injEq] at h
            obtain ⟨e1, e2, _⟩ := h
            rw [← e1, ← e2]
            exact ih q1 q2 f1 hr2
          | _ => rw [hr2] at h; cases h
      | _ => rw [hr] at h; cases h
    · cases h
      exact ⟨hm, hz g (List.eq_nil_of_length_eq_zero (by omega)) _⟩

/-- `CheckTimers` on a queue no timer of which was reset. -/
theorem check_first {fuel : Nat} {tg tg' : Tg} {now nw : Int} {ran : Bool} (g : Good none tg)
    (k : Timely tg) (hm : tg.modifiedEarliest = 0) (h : checkTimers fuel tg now = .ok (tg', nw, ran)) :
    tg'.modifiedEarliest = 0 ∧ NotBefore tg' nw := by
  have hz : ∀ {tg : Tg}, Good none tg → tg.heap = [] → ∀ w, NotBefore tg w := by
    intro tg g he w t d hd
    obtain ⟨⟨c, hcm, _⟩, _⟩ := due_in_heap g hd
    rw [he] at hcm; cases hcm
  have hpos : NotBefore tg 0 := by
    intro t d hd
    obtain ⟨⟨c, hcm, e⟩, e2⟩ := due_in_heap g hd
    have := (k.ent c hcm).2.1
    rw [e, e2] at this
    omega
  unfold checkTimers at h
  split at h
  · cases h; exact ⟨hm, hpos⟩
  · split at h
    · cases h
      refine ⟨hm, ?_⟩
      by_cases he : tg.heap = []
      · exact hz g he _
      · obtain ⟨b, hb⟩ := heap_head (tg := tg) (fun e => he (List.eq_nil_of_length_eq_zero e))
        have ht0 := g.t0
        rw [headWhen, hb] at ht0
        simp only at ht0
        refine notBefore_head g k hm hb ?_
        unfold wakeTime
        have := (k.ent b (head_mem hb)).1
        split <;> omega
    · have key : ∀ tg2 nw2 ran2, (if tg.heap.length > 0 then
          (adjustTimers tg now).bind fun tg1 => runAll fuel tg1 now
          else Out.ok (tg, (0 : Int), false)) = .ok (tg2, nw2, ran2) →
          Good none tg2 ∧ tg2.modifiedEarliest = 0 ∧ NotBefore tg2 nw2 := by
        intro tg2 nw2 ran2 hh
        split at hh
        · rcases adjust_spec g now with ⟨a1, _⟩ | ⟨_, a2, _⟩ | ⟨_, a2, _⟩
          · rw [a1] at hh
            exact ⟨(runAll_armed fuel g hh).1, runAll_first fuel g k hm hh⟩
          · exact absurd hm a2
          · exact absurd hm a2
        · cases hh; exact ⟨g, hm, hpos⟩
      cases hx : (if tg.heap.length > 0 then
          (adjustTimers tg now).bind fun tg1 => runAll fuel tg1 now
          else Out.ok (tg, (0 : Int), false)) with
      | ok r =>
        obtain ⟨tg2, nw2, ran2⟩ := r
        obtain ⟨k1, k2, k3⟩ := key _ _ _ hx
        rw [hx] at h
        simp only [Out.bind] at h
        split at h
        · cases hc : clearDeleted tg2 with
          | ok tg3 =>
            rw [hc] at h
            cases h
            obtain ⟨tg4, r1, _, _, _, _, r6⟩ := clearDeleted_spec k1
            rw [r1] at hc; cases hc
            refine ⟨r6, fun t d hd => ?_⟩
            rw [(clear_armed k1 r1).2.2] at hd
            exact k3 t d hd
          | _ => rw [hc] at h; cases h
        · cases h
          exact ⟨k2, k3⟩
      | _ => rw [hx] at h; cases h

end Memar.Timer.Queue
