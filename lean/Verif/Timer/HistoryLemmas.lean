import Verif.Timer.SweepLemmas
import Verif.Timer.TimingSpec

/-!
# Lemmas about whole calls on the timing queue
-/

namespace Memar.Timer.Queue

open Memar.Timer

/-- The deadline of one timer, as `armed` sees it. -/
def dueOf (m : Tm) : Option Int :=
  match m.status with
  | .waiting | .modifiedEarlier | .modifiedLater => some m.when
  | _ => none

theorem armed_eq (tg : Tg) : armed tg = ⟨fun t => dueOf (tg.tm t), fun t => (tg.tm t).period⟩ := rfl

theorem armed_congr {tg tg' : Tg} (h : ∀ u, dueOf (tg'.tm u) = dueOf (tg.tm u) ∧
    (tg'.tm u).period = (tg.tm u).period) : armed tg' = armed tg := by
  rw [armed_eq, armed_eq]
  congr 1
  · funext u; exact (h u).1
  · funext u; exact (h u).2

theorem armed_upd {tg tg' : Tg} {t : Nat} {v : Option Int} (hother : ∀ u, u ≠ t →
    dueOf (tg'.tm u) = dueOf (tg.tm u) ∧ (tg'.tm u).period = (tg.tm u).period)
    (ht : dueOf (tg'.tm t) = v) (hp : (tg'.tm t).period = (tg.tm t).period) :
    armed tg' = ⟨upd (armed tg).due t v, (armed tg).period⟩ := by
  rw [armed_eq, armed_eq]
  congr 1
  · funext u
    by_cases e : u = t
    · subst e; simp [upd, ht]
    · simp [upd, e, (hother u e).1]
  · funext u
    by_cases e : u = t
    · subst e; exact hp
    · exact (hother u e).2

theorem cleaned_armed {tg tg' : Tg} (h : Cleaned tg tg') (u : Nat) :
    dueOf (tg'.tm u) = dueOf (tg.tm u) ∧ (tg'.tm u).period = (tg.tm u).period := by
  rcases h.1 u with e | ⟨_, e1, e2⟩
  · rw [e]; exact ⟨rfl, rfl⟩
  · rw [e2]; simp [dueOf, e1]

/-! ## Start and Tick -/

theorem unset_out {tg : Tg} (g : Good none tg) {t : Nat}
    (h : (tg.tm t).status = .unset ∨ (tg.tm t).status = .removed) : t ∉ tg.ids := by
  intro ht
  have := (g.inn t (by simp)).mp ht
  rcases h with h | h
  · exact this.1 h
  · exact this.2 h

/-- The queue `AddTimer` works on when `Start` calls it. -/
theorem start_pre {tg : Tg} (g : Good none tg) {t : Nat} (hs : (tg.tm t).status = .unset) (w : Int) :
    Good (some t) (((tg.setStatus t .waiting).setWhen t w).setTiming t true) := by
  refine good_except g (unset_out g (Or.inl hs)) rfl rfl rfl rfl ?_
  intro u e
  simp [Tg.setTiming, Tg.setWhen, Tg.setStatus, e]

theorem start_pre_tm (tg : Tg) (t : Nat) (w : Int) (u : Nat) :
    (((tg.setStatus t .waiting).setWhen t w).setTiming t true).tm u =
      if u = t then ⟨w, (tg.tm t).period, .waiting, true⟩ else tg.tm u := by
  by_cases e : u = t
  · subst e; simp [Tg.setTiming, Tg.setWhen, Tg.setStatus]
  · simp [Tg.setTiming, Tg.setWhen, Tg.setStatus, e]

/-- The result of `AddTimer`. -/
def added (tg1 : Tg) (t : Nat) (h : List (Bucket Nat)) : Tg :=
  { tg1.setTiming t true with
    heap := h, timer0When := headWhen h, timersCount := tg1.timersCount + 1 }

theorem start_ok {tg tg' : Tg} (g : Good none tg) {t : Nat} {d now : Int} {r : Option Err}
    (h : start tg t d now = .ok (tg', r)) :
    (r ≠ none ∧ tg' = tg) ∨
    (r = none ∧ d ≥ 1 ∧ (tg.tm t).status = .unset ∧ Good none tg' ∧ ∃ tg1 hp,
      Good (some t) tg1 ∧
      Cleaned (((tg.setStatus t .waiting).setWhen t (now + d)).setTiming t true) tg1 ∧
      tg1.tm t = ⟨now + d, (tg.tm t).period, .waiting, true⟩ ∧
      (⟨t, now + d⟩ :: tg1.heap).Perm hp ∧ tg' = added tg1 t hp) := by
  unfold start at h
  split at h
  · cases h; left; simp
  · rename_i hd
    split at h
    · cases h; left; simp
    · rename_i hs
      have hs' : (tg.tm t).status = .unset := by
        apply Decidable.byContradiction; intro c; exact hs (Or.inl c)
      right
      have gp := start_pre g hs' (now + d)
      have hpt := start_pre_tm tg t (now + d) t
      rw [if_pos rfl] at hpt
      rcases addTimer_spec gp with ⟨tg1, tg2, r1, r2, r3, r4, ⟨hp, r5, r6, r7⟩, _⟩ | ⟨r1, _⟩ | ⟨r1, _⟩
      · rw [r1] at h
        simp only [Out.bind, Out.ok.injEq, Prod.mk.injEq] at h
        obtain ⟨e1, e2⟩ := h
        rw [hpt] at r4
        rw [r4] at r5
        refine ⟨e2.symm, by omega, hs', ?_, tg1, hp, r2, r3, r4, r5, by rw [← e1, r7]; rfl⟩
        rw [← e1, r7]
        refine good_added r2 (by rw [r4]; exact r5) r6 rfl rfl rfl rfl ?_ ?_ ?_ ?_
        · intro u e; simp [setTiming_tm, e]
        · simp [setTiming_tm]
        · simp [setTiming_tm, r4]
        · simp [setTiming_tm]
      · rw [r1] at h; cases h
      · rw [r1] at h; cases h

theorem added_other {tg1 : Tg} {t : Nat} {hp : List (Bucket Nat)} {u : Nat} (e : u ≠ t) :
    (added tg1 t hp).tm u = tg1.tm u := by simp [added, setTiming_tm, e]

theorem added_self {tg1 : Tg} {t : Nat} {hp : List (Bucket Nat)} :
    (added tg1 t hp).tm t = { tg1.tm t with timing := true } := by simp [added, setTiming_tm]

theorem start_good {tg tg' : Tg} (g : Good none tg) {t : Nat} {d now : Int} {r : Option Err}
    (h : start tg t d now = .ok (tg', r)) : Good none tg' := by
  rcases start_ok g h with ⟨_, e⟩ | ⟨_, _, _, e, _⟩
  · rw [e]; exact g
  · exact e

theorem start_fired {tg tg' : Tg} (g : Good none tg) {t : Nat} {d now : Int} {r : Option Err}
    (h : start tg t d now = .ok (tg', r)) : tg'.fired = tg.fired := by
  rcases start_ok g h with ⟨_, e⟩ | ⟨_, _, _, _, tg1, hp, _, e1, _, _, e2⟩
  · rw [e]
  · rw [e2]; exact e1.2.1

theorem start_armed {tg tg' : Tg} (g : Good none tg) {t : Nat} {d now : Int} {r : Option Err}
    (h : start tg t d now = .ok (tg', r)) :
    armed tg' = if r = none then ⟨upd (armed tg).due t (some (now + d)), (armed tg).period⟩
      else armed tg := by
  rcases start_ok g h with ⟨e0, e⟩ | ⟨e0, _, _, _, tg1, hp, _, e1, e3, _, e2⟩
  · rw [if_neg e0, e]
  · rw [if_pos e0, e2]
    apply armed_upd
    · intro u hu
      rw [added_other hu]
      have := cleaned_armed e1 u
      rw [start_pre_tm, if_neg hu] at this
      exact this
    · rw [added_self, e3]; rfl
    · rw [added_self, e3]

theorem setPeriod_good {tg : Tg} (g : Good none tg) (t : Nat) {p : Int} (hp : p > 0) :
    Good none (tg.setPeriod t p) := by
  have hst : ∀ u, ((tg.setPeriod t p).tm u).status = (tg.tm u).status := by
    intro u; rw [setPeriod_tm]; by_cases e : u = t
    · subst e; simp
    · simp [e]
  have hti : ∀ u, ((tg.setPeriod t p).tm u).timing = (tg.tm u).timing := by
    intro u; rw [setPeriod_tm]; by_cases e : u = t
    · subst e; simp
    · simp [e]
  refine ⟨g.order, g.nodup, g.out, ?_, ?_, ?_, g.cnt, ?_, g.t0, ?_⟩
  · intro u hu; rw [hst]; exact g.inn u hu
  · intro u hu; rw [hst]; exact g.rest u hu
  · intro u hu; rw [hti]; exact g.timing u hu
  · show tg.deletedCount = _
    rw [g.dcnt]
    congr 1
    apply List.countP_congr
    intro c _
    simp only [isDel, hst]
  · intro c hc hw
    rw [hst] at hw
    rw [setPeriod_tm]
    by_cases e : c.timer = t
    · rw [if_pos e]; right; exact hp
    · rw [if_neg e]; exact g.same c hc hw

theorem tick_ok {tg tg' : Tg} {t : Nat} {f i now : Int} {r : Option Err}
    (h : tick tg t f i now = .ok (tg', r)) :
    (r ≠ none ∧ tg' = tg) ∨ (i ≥ 1 ∧ start (tg.setPeriod t i) t f now = .ok (tg', r)) := by
  unfold tick at h
  split at h
  · cases h; left; simp
  · rename_i hd; right; exact ⟨by omega, h⟩

theorem tick_good {tg tg' : Tg} (g : Good none tg) {t : Nat} {f i now : Int} {r : Option Err}
    (h : tick tg t f i now = .ok (tg', r)) : Good none tg' := by
  rcases tick_ok h with ⟨_, e⟩ | ⟨e1, e2⟩
  · rw [e]; exact g
  · exact start_good (setPeriod_good g t (by omega)) e2

theorem setPeriod_armed (tg : Tg) (t : Nat) (p : Int) :
    armed (tg.setPeriod t p) = ⟨(armed tg).due, upd (armed tg).period t p⟩ := by
  rw [armed_eq, armed_eq]
  congr 1
  · funext u
    rw [setPeriod_tm]
    by_cases e : u = t
    · subst e; simp [dueOf]
    · simp [e]
  · funext u
    rw [setPeriod_tm]
    by_cases e : u = t
    · subst e; simp [upd]
    · simp [e, upd]

/-! ## Stop -/

theorem in_heap {tg : Tg} (g : Good none tg) {t : Nat} (h1 : (tg.tm t).status ≠ .unset)
    (h2 : (tg.tm t).status ≠ .removed) : t ∈ tg.ids := (g.inn t (by simp)).mpr ⟨h1, h2⟩

/-- `Stop` on a consistent queue always returns. -/
theorem stop_ok {tg : Tg} (g : Good none tg) (t : Nat) :
    ∃ tg' r, stop tg t = .ok (tg', r) ∧ Good none tg' ∧
      tg'.fired = tg.fired ∧ tg'.heap = tg.heap ∧ tg'.modifiedEarliest = tg.modifiedEarliest ∧
      tg'.timer0When = tg.timer0When ∧
      (∀ u, u ≠ t → tg'.tm u = tg.tm u) ∧
      (tg'.tm t = tg.tm t ∧ dueOf (tg.tm t) = none ∨
        tg'.tm t = { tg.tm t with status := .deleted } ∧ t ∈ tg.ids) := by
  unfold stop
  have key : (tg.tm t).status ≠ .unset → (tg.tm t).status ≠ .removed →
      (tg.tm t).status ≠ .deleted →
      ∃ (tg' : Tg) (r : Option Err), (if (tg.tm t).timing then
          .ok ({ tg.setStatus t .deleted with
            deletedCount := (tg.setStatus t .deleted).deletedCount + 1 }, none)
        else Out.panic) = .ok (tg', r) ∧ Good none tg' ∧
      tg'.fired = tg.fired ∧ tg'.heap = tg.heap ∧ tg'.modifiedEarliest = tg.modifiedEarliest ∧
      tg'.timer0When = tg.timer0When ∧
      (∀ u, u ≠ t → tg'.tm u = tg.tm u) ∧
      (tg'.tm t = tg.tm t ∧ dueOf (tg.tm t) = none ∨
        tg'.tm t = { tg.tm t with status := .deleted } ∧ t ∈ tg.ids) := by
    intro h1 h2 h3
    have hin := in_heap g h1 h2
    have ht := (g.timing t (by simp)).mpr hin
    rw [ht, if_pos rfl]
    refine ⟨_, _, rfl, ?_, rfl, rfl, rfl, rfl, ?_, Or.inr ⟨?_, hin⟩⟩
    · refine good_mark g hin rfl rfl rfl ?_ (Or.inl ?_) ?_ ?_
      · intro u e; simp [Tg.setStatus, e]
      · simp [Tg.setStatus]
      · simp [Tg.setStatus, ht]
      · simp [Tg.setStatus, h3]
    · intro u e; simp [Tg.setStatus, e]
    · simp [Tg.setStatus]
  have hr := g.rest t (by simp)
  cases hs : (tg.tm t).status with
  | unset => exact ⟨tg, _, rfl, g, rfl, rfl, rfl, rfl, fun _ _ => rfl, Or.inl ⟨rfl, by simp [dueOf, hs]⟩⟩
  | waiting => exact key (by simp [hs]) (by simp [hs]) (by simp [hs])
  | modifiedEarlier => exact key (by simp [hs]) (by simp [hs]) (by simp [hs])
  | modifiedLater => exact key (by simp [hs]) (by simp [hs]) (by simp [hs])
  | deleted => exact ⟨tg, _, rfl, g, rfl, rfl, rfl, rfl, fun _ _ => rfl, Or.inl ⟨rfl, by simp [dueOf, hs]⟩⟩
  | removed => exact ⟨tg, _, rfl, g, rfl, rfl, rfl, rfl, fun _ _ => rfl, Or.inl ⟨rfl, by simp [dueOf, hs]⟩⟩
  | running => rw [hs] at hr; simp [AtRest] at hr
  | removing => rw [hs] at hr; simp [AtRest] at hr
  | modifying => rw [hs] at hr; simp [AtRest] at hr
  | moving => rw [hs] at hr; simp [AtRest] at hr

/-! ## Reset -/

/-- The period after a reset. -/
def resetPeriod (m : Tm) (d : Int) : Int := if m.period ≠ 0 then d else m.period

theorem resetTail_in {tg0 tg : Tg} {t : Nat} {d now : Int} (hd : d ≥ 1) (g : Good none tg)
    (hin : t ∈ tg.ids) (hheap : tg0.heap = tg.heap) (ht0 : tg0.timer0When = tg.timer0When)
    (hc : tg0.timersCount = tg.timersCount)
    (hdc : tg0.deletedCount = tg.deletedCount - (if (tg.tm t).status = .deleted then 1 else 0))
    (hother : ∀ u, u ≠ t → tg0.tm u = tg.tm u) (ht : tg0.tm t = { tg.tm t with status := .modifying })
    (hfr : tg0.fired = tg.fired) (hme : tg0.modifiedEarliest = tg.modifiedEarliest) :
    ∃ tg', resetTail tg0 t d now false = .ok (tg', none) ∧ Good none tg' ∧ tg'.fired = tg.fired ∧
      tg'.heap = tg.heap ∧ (∀ u, u ≠ t → tg'.tm u = tg.tm u) ∧
      (tg'.tm t).when = now + d ∧ (tg'.tm t).period = resetPeriod (tg.tm t) d ∧
      (((tg'.tm t).status = .modifiedEarlier ∧ now + d < (tg.tm t).when ∧
          tg'.modifiedEarliest = (updateModified tg (now + d)).modifiedEarliest) ∨
        ((tg'.tm t).status = .modifiedLater ∧ ¬ now + d < (tg.tm t).when ∧
          tg'.modifiedEarliest = tg.modifiedEarliest)) := by
  have htm := (g.timing t (by simp)).mpr hin
  unfold resetTail
  simp only [Bool.false_eq_true, if_false]
  have e0 : (tg0.setWhen t (now + d)).tm t = { tg.tm t with status := .modifying, when := now + d } := by
    rw [setWhen_tm, if_pos rfl, ht]
  have eo : ∀ u, u ≠ t → (tg0.setWhen t (now + d)).tm u = tg.tm u := by
    intro u e; rw [setWhen_tm, if_neg e, hother u e]
  rw [e0]
  simp only [ht]
  generalize hg1 : (if (tg.tm t).period ≠ 0 then (tg0.setWhen t (now + d)).setPeriod t d
    else tg0.setWhen t (now + d)) = tg1
  have f0 : tg1.tm t = ⟨now + d, resetPeriod (tg.tm t) d, .modifying, (tg.tm t).timing⟩ := by
    rw [← hg1]; unfold resetPeriod
    by_cases e : (tg.tm t).period ≠ 0
    · rw [if_pos e, if_pos e, setPeriod_tm, if_pos rfl, e0]
    · rw [if_neg e, if_neg e, e0]
  have fo : ∀ u, u ≠ t → tg1.tm u = tg.tm u := by
    intro u hu
    rw [← hg1]
    by_cases e : (tg.tm t).period ≠ 0
    · rw [if_pos e, setPeriod_tm, if_neg hu, eo u hu]
    · rw [if_neg e, eo u hu]
  have fh : tg1.heap = tg.heap ∧ tg1.timer0When = tg.timer0When ∧ tg1.timersCount = tg.timersCount ∧
      tg1.deletedCount = tg0.deletedCount ∧ tg1.fired = tg.fired ∧
      tg1.modifiedEarliest = tg.modifiedEarliest := by
    rw [← hg1]
    by_cases e : (tg.tm t).period ≠ 0
    · rw [if_pos e]; exact ⟨hheap, ht0, hc, rfl, hfr, hme⟩
    · rw [if_neg e]; exact ⟨hheap, ht0, hc, rfl, hfr, hme⟩
  obtain ⟨fh1, fh2, fh3, fh4, fh5, fh6⟩ := fh
  have um : ∀ w, (updateModified tg1 w).heap = tg1.heap ∧ (updateModified tg1 w).tm = tg1.tm ∧
      (updateModified tg1 w).timer0When = tg1.timer0When ∧
      (updateModified tg1 w).timersCount = tg1.timersCount ∧
      (updateModified tg1 w).deletedCount = tg1.deletedCount ∧
      (updateModified tg1 w).fired = tg1.fired ∧
      (updateModified tg1 w).modifiedEarliest = (updateModified tg w).modifiedEarliest := by
    intro w; unfold updateModified
    rw [fh6]
    split <;> simp [fh6]
  by_cases hlt : now + d < (tg.tm t).when
  · rw [if_pos hlt, f0]
    simp only [htm, if_true]
    obtain ⟨u1, u2, u3, u4, u5, u6, u7⟩ := um (now + d)
    have st : ((updateModified tg1 (now + d)).setStatus t .modifiedEarlier).tm t =
        ⟨now + d, resetPeriod (tg.tm t) d, .modifiedEarlier, (tg.tm t).timing⟩ := by
      rw [setStatus_tm, if_pos rfl, u2, f0]
    have so : ∀ u, u ≠ t → ((updateModified tg1 (now + d)).setStatus t .modifiedEarlier).tm u = tg.tm u := by
      intro u hu; rw [setStatus_tm, if_neg hu, u2, fo u hu]
    refine ⟨_, rfl, ?_, u6.trans fh5, u1.trans fh1, so, by rw [st], by rw [st],
      Or.inl ⟨by rw [st], hlt, u7⟩⟩
    refine good_mark g hin (u1.trans fh1) (u3.trans fh2) (u4.trans fh3) so (Or.inr (Or.inl (by rw [st])))
      (by rw [st]; exact htm) ?_
    show (updateModified tg1 (now + d)).deletedCount = _
    rw [u5, fh4, hdc, st]; simp
  · rw [if_neg hlt]
    have st : (tg1.setStatus t .modifiedLater).tm t =
        ⟨now + d, resetPeriod (tg.tm t) d, .modifiedLater, (tg.tm t).timing⟩ := by
      rw [setStatus_tm, if_pos rfl, f0]
    have so : ∀ u, u ≠ t → (tg1.setStatus t .modifiedLater).tm u = tg.tm u := by
      intro u hu; rw [setStatus_tm, if_neg hu, fo u hu]
    refine ⟨_, rfl, ?_, fh5, fh1, so, by rw [st], by rw [st],
      Or.inr ⟨by rw [st], hlt, fh6⟩⟩
    refine good_mark g hin fh1 fh2 fh3 so (Or.inr (Or.inr (by rw [st])))
      (by rw [st]; exact htm) ?_
    show tg1.deletedCount = _
    rw [fh4, hdc, st]; simp

/-- The queue `AddTimer` works on when `Reset` calls it. -/
def resetPre (tg : Tg) (t : Nat) (d now : Int) : Tg :=
  let tg0 := (tg.setStatus t .modifying).setWhen t (now + d)
  (if (tg0.tm t).period ≠ 0 then tg0.setPeriod t d else tg0).setTiming t true

theorem resetPre_tm (tg : Tg) (t : Nat) (d now : Int) (u : Nat) :
    (resetPre tg t d now).tm u =
      if u = t then ⟨now + d, resetPeriod (tg.tm t) d, .modifying, true⟩ else tg.tm u := by
  unfold resetPre resetPeriod
  by_cases e : u = t
  · subst e
    simp only [setWhen_tm, setStatus_tm, if_true]
    by_cases e : (tg.tm u).period ≠ 0
    · rw [if_pos e, setTiming_tm, if_pos rfl, setPeriod_tm, if_pos rfl, if_pos e]
      simp [setWhen_tm, setStatus_tm]
    · rw [if_neg e, setTiming_tm, if_pos rfl, if_neg e]
      simp [setWhen_tm, setStatus_tm]
  · simp only [setWhen_tm, setStatus_tm, if_true]
    by_cases e' : (tg.tm t).period ≠ 0
    · rw [if_pos e', setTiming_tm, if_neg e, setPeriod_tm, if_neg e]
      simp [setWhen_tm, setStatus_tm, e]
    · rw [if_neg e', setTiming_tm, if_neg e]
      simp [setWhen_tm, setStatus_tm, e]

theorem resetPre_same (tg : Tg) (t : Nat) (d now : Int) :
    (resetPre tg t d now).heap = tg.heap ∧ (resetPre tg t d now).timer0When = tg.timer0When ∧
    (resetPre tg t d now).timersCount = tg.timersCount ∧
    (resetPre tg t d now).deletedCount = tg.deletedCount ∧
    (resetPre tg t d now).fired = tg.fired ∧
    (resetPre tg t d now).modifiedEarliest = tg.modifiedEarliest := by
  unfold resetPre
  simp only
  split <;> exact ⟨rfl, rfl, rfl, rfl, rfl, rfl⟩

theorem reset_ok {tg tg' : Tg} (g : Good none tg) {t : Nat} {d now : Int} {r : Option Err}
    (h : reset tg t d now = .ok (tg', r)) :
    (r ≠ none ∧ tg' = tg) ∨
    (r = none ∧ d ≥ 1 ∧ t ∈ tg.ids ∧ Good none tg' ∧ tg'.fired = tg.fired ∧
      tg'.heap = tg.heap ∧ (∀ u, u ≠ t → tg'.tm u = tg.tm u) ∧
      (tg'.tm t).when = now + d ∧ (tg'.tm t).period = resetPeriod (tg.tm t) d ∧
      (((tg'.tm t).status = .modifiedEarlier ∧ now + d < (tg.tm t).when ∧
          tg'.modifiedEarliest = (updateModified tg (now + d)).modifiedEarliest) ∨
        ((tg'.tm t).status = .modifiedLater ∧ ¬ now + d < (tg.tm t).when ∧
          tg'.modifiedEarliest = tg.modifiedEarliest))) ∨
    (r = none ∧ d ≥ 1 ∧ t ∉ tg.ids ∧ Good none tg' ∧ ∃ tg1 hp, Good (some t) tg1 ∧
      Cleaned (resetPre tg t d now) tg1 ∧
      tg1.tm t = ⟨now + d, resetPeriod (tg.tm t) d, .modifying, true⟩ ∧
      (⟨t, now + d⟩ :: tg1.heap).Perm hp ∧ tg' = (added tg1 t hp).setStatus t .waiting) := by
  unfold reset at h
  split at h
  · cases h; left; simp
  · rename_i hd
    right
    have hr := g.rest t (by simp)
    have kin : ∀ tg0 : Tg, t ∈ tg.ids → tg0.heap = tg.heap → tg0.timer0When = tg.timer0When →
        tg0.timersCount = tg.timersCount →
        tg0.deletedCount = tg.deletedCount - (if (tg.tm t).status = .deleted then 1 else 0) →
        (∀ u, u ≠ t → tg0.tm u = tg.tm u) → tg0.tm t = { tg.tm t with status := .modifying } →
        tg0.fired = tg.fired → tg0.modifiedEarliest = tg.modifiedEarliest →
        resetTail tg0 t d now false = .ok (tg', r) →
        (r = none ∧ d ≥ 1 ∧ t ∈ tg.ids ∧ Good none tg' ∧ tg'.fired = tg.fired ∧
      tg'.heap = tg.heap ∧ (∀ u, u ≠ t → tg'.tm u = tg.tm u) ∧
      (tg'.tm t).when = now + d ∧ (tg'.tm t).period = resetPeriod (tg.tm t) d ∧
      (((tg'.tm t).status = .modifiedEarlier ∧ now + d < (tg.tm t).when ∧
          tg'.modifiedEarliest = (updateModified tg (now + d)).modifiedEarliest) ∨
        ((tg'.tm t).status = .modifiedLater ∧ ¬ now + d < (tg.tm t).when ∧
          tg'.modifiedEarliest = tg.modifiedEarliest))) := by
      intro tg0 hin a1 a2 a3 a4 a5 a6 a7 a8 hh
      obtain ⟨tg2, q1, q2⟩ := resetTail_in (now := now) (d := d) (by omega) g hin a1 a2 a3 a4 a5 a6 a7 a8
      rw [hh] at q1
      simp only [Out.ok.injEq, Prod.mk.injEq] at q1
      obtain ⟨rfl, rfl⟩ := q1
      exact ⟨rfl, by omega, hin, q2⟩
    have kout : t ∉ tg.ids → resetTail (tg.setStatus t .modifying) t d now true = .ok (tg', r) →
        (r = none ∧ d ≥ 1 ∧ t ∉ tg.ids ∧ Good none tg' ∧ ∃ tg1 hp, Good (some t) tg1 ∧
      Cleaned (resetPre tg t d now) tg1 ∧
      tg1.tm t = ⟨now + d, resetPeriod (tg.tm t) d, .modifying, true⟩ ∧
      (⟨t, now + d⟩ :: tg1.heap).Perm hp ∧ tg' = (added tg1 t hp).setStatus t .waiting) := by
      intro hout hh
      have e : resetTail (tg.setStatus t .modifying) t d now true =
          (addTimer (resetPre tg t d now) t).bind fun tg2 => .ok (tg2.setStatus t .waiting, none) := rfl
      rw [e] at hh
      obtain ⟨s1, s2, s3, s4, s5, _⟩ := resetPre_same tg t d now
      have gp : Good (some t) (resetPre tg t d now) := by
        refine good_except g hout s1 s2 s3 s4 ?_
        intro u hu; rw [resetPre_tm, if_neg hu]
      have hpt := resetPre_tm tg t d now t
      rw [if_pos rfl] at hpt
      rcases addTimer_spec gp with ⟨tg1, tg2, r1, r2, r3, r4, ⟨hp, r5, r6, r7⟩, _⟩ | ⟨r1, _⟩ | ⟨r1, _⟩
      · rw [r1] at hh
        simp only [Out.bind, Out.ok.injEq, Prod.mk.injEq] at hh
        obtain ⟨e1, e2⟩ := hh
        rw [hpt] at r4
        have r5' := r5
        rw [r4] at r5'
        refine ⟨e2.symm, by omega, hout, ?_, tg1, hp, r2, r3, r4, r5', by rw [← e1, r7]; rfl⟩
        rw [← e1, r7]
        refine good_added r2 r5 r6 rfl rfl rfl rfl ?_ ?_ ?_ ?_
        · intro u e; simp [setTiming_tm, setStatus_tm, e]
        · simp [setTiming_tm, setStatus_tm]
        · simp [setTiming_tm, setStatus_tm]
        · simp [setTiming_tm, setStatus_tm]
      · rw [r1] at hh; cases hh
      · rw [r1] at hh; cases hh
    have so : ∀ u, u ≠ t → (tg.setStatus t .modifying).tm u = tg.tm u := by
      intro u e; simp [Tg.setStatus, e]
    have ss : (tg.setStatus t .modifying).tm t = { tg.tm t with status := .modifying } := by
      simp [Tg.setStatus]
    cases hs : (tg.tm t).status with
    | waiting =>
      rw [hs] at h
      exact Or.inl (kin (tg.setStatus t .modifying) (in_heap g (by simp [hs]) (by simp [hs])) rfl rfl rfl (by simp [hs, Tg.setStatus])
        so ss rfl rfl h)
    | modifiedEarlier =>
      rw [hs] at h
      exact Or.inl (kin (tg.setStatus t .modifying) (in_heap g (by simp [hs]) (by simp [hs])) rfl rfl rfl (by simp [hs, Tg.setStatus])
        so ss rfl rfl h)
    | modifiedLater =>
      rw [hs] at h
      exact Or.inl (kin (tg.setStatus t .modifying) (in_heap g (by simp [hs]) (by simp [hs])) rfl rfl rfl (by simp [hs, Tg.setStatus])
        so ss rfl rfl h)
    | deleted =>
      rw [hs] at h
      simp only at h
      split at h
      · exact Or.inl (kin { tg.setStatus t .modifying with
          deletedCount := (tg.setStatus t .modifying).deletedCount - 1 } (in_heap g (by simp [hs]) (by simp [hs])) rfl rfl rfl (by simp [hs, Tg.setStatus])
          so ss rfl rfl h)
      · cases h
    | unset =>
      rw [hs] at h
      exact Or.inr (kout (unset_out g (Or.inl hs)) h)
    | removed =>
      rw [hs] at h
      exact Or.inr (kout (unset_out g (Or.inr hs)) h)
    | running => rw [hs] at hr; simp [AtRest] at hr
    | removing => rw [hs] at hr; simp [AtRest] at hr
    | modifying => rw [hs] at hr; simp [AtRest] at hr
    | moving => rw [hs] at hr; simp [AtRest] at hr

end Memar.Timer.Queue
