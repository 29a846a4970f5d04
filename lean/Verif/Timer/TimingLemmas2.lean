import Verif.Timer.TimingLemmas

/-!
# Lemmas about the timing queue: running timers, marking timers, sweeping
-/

namespace Memar.Timer.Queue

open Memar.Timer

theorem siftDown_id {τ : Type} [DecidableEq τ] (l : List (Bucket τ)) (hl : HeapOrder l) (i : Nat)
    (hi : i < l.length) : siftDown l i = some l := by
  have ho := (ord_iff l).mp hl
  unfold siftDown
  rw [List.getElem?_eq_getElem hi]
  simp only
  have hloop : siftDownLoop (l[i]).when l i = some (l, i) := by
    rw [siftDownLoop.eq_def]
    split
    · rfl
    · rename_i c w hm
      obtain ⟨c0, hc, cp, hw, _⟩ := minChild_some hm
      have h1 := ho c c0 hc
      rw [cp, W_some (List.getElem?_eq_getElem hi), ← hw] at h1
      rw [if_pos h1]
  rw [hloop]
  simp only
  rw [place_eq _ _ hi, List.set_getElem_self]

theorem setStatus_tm (tg : Tg) (t : Nat) (s : Status) (u : Nat) :
    (tg.setStatus t s).tm u = if u = t then { tg.tm t with status := s } else tg.tm u := rfl

theorem setWhen_tm (tg : Tg) (t : Nat) (s : Int) (u : Nat) :
    (tg.setWhen t s).tm u = if u = t then { tg.tm t with when := s } else tg.tm u := rfl

theorem setTiming_tm (tg : Tg) (t : Nat) (s : Bool) (u : Nat) :
    (tg.setTiming t s).tm u = if u = t then { tg.tm t with timing := s } else tg.tm u := rfl

theorem setPeriod_tm (tg : Tg) (t : Nat) (s : Int) (u : Nat) :
    (tg.setPeriod t s).tm u = if u = t then { tg.tm t with period := s } else tg.tm u := rfl

/-- A consistent queue and a timer outside the heap, however that timer looks. -/
theorem good_except {tg tg' : Tg} (g : Good none tg) {t : Nat} (ht : t ∉ tg.ids)
    (hheap : tg'.heap = tg.heap) (ht0 : tg'.timer0When = tg.timer0When)
    (hc : tg'.timersCount = tg.timersCount) (hd : tg'.deletedCount = tg.deletedCount)
    (hother : ∀ u, u ≠ t → tg'.tm u = tg.tm u) : Good (some t) tg' := by
  have hids : tg'.ids = tg.ids := by rw [Tg.ids, hheap]; rfl
  have hne : ∀ b ∈ tg.heap, b.timer ≠ t := by
    intro b hb e; apply ht; rw [← e, mem_ids]; exact ⟨b, hb, rfl⟩
  refine ⟨by rw [hheap]; exact g.order, by rw [hids]; exact g.nodup, ?_, ?_, ?_, ?_, ?_, ?_, ?_, ?_⟩
  · intro u e; cases e; rw [hids]; exact ht
  · intro u e
    have e' : u ≠ t := fun c => e (by rw [c])
    rw [hids, hother u e']; exact g.inn u (by simp)
  · intro u e
    have e' : u ≠ t := fun c => e (by rw [c])
    rw [hother u e']; exact g.rest u (by simp)
  · intro u e
    have e' : u ≠ t := fun c => e (by rw [c])
    rw [hids, hother u e']; exact g.timing u (by simp)
  · rw [hc, hheap]; exact g.cnt
  · rw [hd, hheap, g.dcnt]
    congr 1
    apply List.countP_congr
    intro b hb
    simp only [isDel, hother _ (hne b hb)]
  · rw [ht0, hheap]; exact g.t0
  · intro b hb
    rw [hheap] at hb
    rw [hother _ (hne b hb)]
    exact g.same b hb

theorem countP_mark {tg tg' : Tg} {t : Nat} (hn : tg.ids.Nodup) (ht : t ∈ tg.ids)
    (hother : ∀ u, u ≠ t → tg'.tm u = tg.tm u) :
    (tg.heap.countP (isDel tg') : Int) = tg.heap.countP (isDel tg)
      + (if (tg'.tm t).status = .deleted then 1 else 0)
      - (if (tg.tm t).status = .deleted then 1 else 0) := by
  obtain ⟨b, hb, e⟩ := mem_ids.mp ht
  have hp := List.perm_cons_erase hb
  have hn' : (b.timer :: (tg.heap.erase b).map (·.timer)).Nodup := by
    have := (hp.map Bucket.timer).nodup_iff.mp hn
    simpa using this
  rw [List.nodup_cons] at hn'
  have hrest : (tg.heap.erase b).countP (isDel tg') = (tg.heap.erase b).countP (isDel tg) := by
    apply List.countP_congr
    intro c hc
    have : c.timer ≠ t := by
      intro h; apply hn'.1; rw [e, ← h]; exact List.mem_map_of_mem hc
    simp only [isDel, hother _ this]
  rw [hp.countP_eq, hp.countP_eq (p := isDel tg), List.countP_cons, List.countP_cons, hrest]
  simp only [isDel, e, decide_eq_true_eq]
  split <;> split <;> omega

/-- Marking a timer in the heap as deleted or modified. -/
theorem good_mark {tg tg' : Tg} (g : Good none tg) {t : Nat} (ht : t ∈ tg.ids)
    (hheap : tg'.heap = tg.heap) (ht0 : tg'.timer0When = tg.timer0When)
    (hc : tg'.timersCount = tg.timersCount)
    (hother : ∀ u, u ≠ t → tg'.tm u = tg.tm u)
    (hs : (tg'.tm t).status = .deleted ∨ (tg'.tm t).status = .modifiedEarlier ∨
      (tg'.tm t).status = .modifiedLater)
    (htm : (tg'.tm t).timing = true)
    (hd : tg'.deletedCount = tg.deletedCount + (if (tg'.tm t).status = .deleted then 1 else 0)
      - (if (tg.tm t).status = .deleted then 1 else 0)) : Good none tg' := by
  have hids : tg'.ids = tg.ids := by rw [Tg.ids, hheap]; rfl
  refine ⟨by rw [hheap]; exact g.order, by rw [hids]; exact g.nodup, fun u e => (by cases e), ?_, ?_,
    ?_, ?_, ?_, ?_, ?_⟩
  · intro u _
    rw [hids]
    by_cases e : u = t
    · subst e
      constructor
      · intro _; rcases hs with h | h | h <;> rw [h] <;> simp
      · intro _; exact ht
    · rw [hother u e]; exact g.inn u (by simp)
  · intro u _
    by_cases e : u = t
    · subst e; rcases hs with h | h | h <;> rw [h] <;> simp [AtRest]
    · rw [hother u e]; exact g.rest u (by simp)
  · intro u _
    rw [hids]
    by_cases e : u = t
    · subst e; simp [htm, ht]
    · rw [hother u e]; exact g.timing u (by simp)
  · rw [hc, hheap]; exact g.cnt
  · rw [hheap, countP_mark g.nodup ht hother, hd, g.dcnt]
  · rw [ht0, hheap]; exact g.t0
  · intro b hb hw
    rw [hheap] at hb
    by_cases e : b.timer = t
    · rw [e] at hw; rcases hs with h | h | h <;> rw [h] at hw <;> cases hw
    · rw [hother _ e] at hw ⊢
      exact g.same b hb hw

/-! ## Running -/

/-- The queue after running the one-shot timer of the first entry. -/
def ranOnce (tg : Tg) (b : Bucket Nat) (h : List (Bucket Nat)) (now : Int) : Tg :=
  { popped tg b h .unset tg.deletedCount with fired := tg.fired ++ [(b.timer, now)] }

/-- The queue after running the periodic timer of the first entry. -/
def ranPeriodic (tg : Tg) (b : Bucket Nat) (now : Int) : Tg :=
  { tg.setWhen b.timer (nextWhenInt (tg.tm b.timer).when (tg.tm b.timer).period now) with
    fired := tg.fired ++ [(b.timer, now)] }

theorem runOne_once {x : Option Nat} {tg : Tg} (g : Good x tg) {b : Bucket Nat}
    (hb : tg.heap[0]? = some b) (hs : (tg.tm b.timer).status = .waiting) (now : Int)
    (hp : ¬ (tg.tm b.timer).period > 0) :
    ∃ h, (b :: h).Perm tg.heap ∧
      runOneTimer (tg.setStatus b.timer .running) b.timer now = .ok (ranOnce tg b h now) ∧
      Good x (ranOnce tg b h now) := by
  obtain ⟨h, r1, r2, r3⟩ := deleteTimer0_ok (tg.setStatus b.timer .running) b hb
  have gp := good_popped (s := .unset) (dc := tg.deletedCount) g hb r1 (r2 g.order) (Or.inl rfl)
    (by rw [hs]; simp)
  refine ⟨h, r1, ?_, ?_⟩
  · unfold runOneTimer
    rw [if_neg (by rw [setStatus_tm, if_pos rfl]; exact hp), r3]
    simp only [Out.bind, ranOnce, popped, Tg.setStatus, Tg.setTiming, Out.ok.injEq, Tg.mk.injEq,
      and_true, true_and]
    funext u
    by_cases e : u = b.timer <;> simp [e]
  · exact ⟨gp.order, gp.nodup, gp.out, gp.inn, gp.rest, gp.timing, gp.cnt, gp.dcnt, gp.t0, gp.same⟩

theorem runOne_periodic {x : Option Nat} {tg : Tg} (g : Good x tg) {b : Bucket Nat}
    (hb : tg.heap[0]? = some b) (hs : (tg.tm b.timer).status = .waiting) (now : Int)
    (hp : (tg.tm b.timer).period > 0) :
    runOneTimer (tg.setStatus b.timer .running) b.timer now = .ok (ranPeriodic tg b now) ∧
      Good x (ranPeriodic tg b now) := by
  have h0 := (List.getElem?_eq_some_iff.mp hb).1
  have htm : ∀ u, (ranPeriodic tg b now).tm u =
      if u = b.timer then { tg.tm b.timer with
        when := nextWhenInt (tg.tm b.timer).when (tg.tm b.timer).period now } else tg.tm u :=
    fun u => rfl
  constructor
  · unfold runOneTimer
    rw [if_pos (by rw [setStatus_tm, if_pos rfl]; exact hp)]
    simp only
    have hheap : ((tg.setStatus b.timer .running).setWhen b.timer
      (nextWhenInt ((tg.setStatus b.timer .running).tm b.timer).when
        ((tg.setStatus b.timer .running).tm b.timer).period now)).heap = tg.heap := rfl
    rw [hheap, siftDown_id tg.heap g.order 0 h0]
    simp only [ranPeriodic, Tg.setStatus, Tg.setWhen, updateTimer0When, Out.ok.injEq,
      Tg.mk.injEq, and_true, true_and]
    refine ⟨?_, ?_⟩
    · funext u
      by_cases e : u = b.timer
      · subst e; simp [← hs]
      · simp [e]
    · rw [g.t0, headWhen]; rfl
  · have hst : ∀ u, ((ranPeriodic tg b now).tm u).status = (tg.tm u).status := by
      intro u; rw [htm]; by_cases e : u = b.timer
      · subst e; simp
      · simp [e]
    have hti : ∀ u, ((ranPeriodic tg b now).tm u).timing = (tg.tm u).timing := by
      intro u; rw [htm]; by_cases e : u = b.timer
      · subst e; simp
      · simp [e]
    refine ⟨g.order, g.nodup, g.out, ?_, ?_, ?_, g.cnt, ?_, g.t0, ?_⟩
    · intro t ht; rw [hst]; exact g.inn t ht
    · intro t ht; rw [hst]; exact g.rest t ht
    · intro t ht; rw [hti]; exact g.timing t ht
    · show tg.deletedCount = _
      rw [g.dcnt]
      congr 1
      apply List.countP_congr
      intro c hc
      simp only [isDel, hst]
    · intro c hc hw
      rw [hst] at hw
      rw [htm]
      by_cases e : c.timer = b.timer
      · rw [if_pos e]; right; exact hp
      · rw [if_neg e]; exact g.same c hc hw

/-- All the ways `runTimer` can end on a consistent queue.  In each, `tg1` is the queue after the
deleted timers at its head are removed. -/
inductive RunEnd (tg : Tg) (now : Int) : Out (Tg × Int) → Prop
  | later (tg1 : Tg) (b : Bucket Nat) (hc : Cleaned tg tg1) (hb : tg1.heap[0]? = some b)
      (hs : (tg1.tm b.timer).status = .waiting) (hw : (tg1.tm b.timer).when > now) :
      RunEnd tg now (.ok (tg1, (tg1.tm b.timer).when))
  | once (tg1 : Tg) (b : Bucket Nat) (h : List (Bucket Nat)) (hc : Cleaned tg tg1)
      (hb : tg1.heap[0]? = some b) (hs : (tg1.tm b.timer).status = .waiting)
      (hw : (tg1.tm b.timer).when ≤ now) (hp : (tg1.tm b.timer).period ≤ 0)
      (hh : (b :: h).Perm tg1.heap) :
      RunEnd tg now (.ok (ranOnce tg1 b h now, 0))
  | periodic (tg1 : Tg) (b : Bucket Nat) (hc : Cleaned tg tg1)
      (hb : tg1.heap[0]? = some b) (hs : (tg1.tm b.timer).status = .waiting)
      (hw : (tg1.tm b.timer).when ≤ now) (hp : (tg1.tm b.timer).period > 0) :
      RunEnd tg now (.ok (ranPeriodic tg1 b now, 0))
  | empty (tg1 : Tg) (hc : Cleaned tg tg1) (he : tg1.heap = [])
      (hd : ∀ b ∈ tg.heap, (tg.tm b.timer).status = .deleted) : RunEnd tg now (.ok (tg1, -1))
  | stuck (b : Bucket Nat) (hb : b ∈ tg.heap) (hs : (tg.tm b.timer).status = .modifiedEarlier ∨
      (tg.tm b.timer).status = .modifiedLater) : RunEnd tg now .deadlock

theorem head_mem {l : List (Bucket Nat)} {b : Bucket Nat} (hb : l[0]? = some b) : b ∈ l := by
  obtain ⟨h0, e⟩ := List.getElem?_eq_some_iff.mp hb
  rw [← e]; exact List.getElem_mem h0

theorem runTimer_spec (n : Nat) (tg : Tg) (now : Int) (g : Good none tg)
    (hn : tg.heap.length ≤ n) (hne : tg.heap.length ≠ 0) :
    RunEnd tg now (runTimer n tg now) ∧
    (∀ tg' w, runTimer n tg now = .ok (tg', w) → Good none tg') := by
  induction n generalizing tg with
  | zero => omega
  | succ n ih =>
    obtain ⟨b, hb⟩ := heap_head hne
    have hbm := head_mem hb
    rw [runTimer, hb]
    simp only
    cases hs : (tg.tm b.timer).status with
    | waiting =>
      simp only
      by_cases hw : (tg.tm b.timer).when > now
      · rw [if_pos hw]
        refine ⟨RunEnd.later tg b (Cleaned.refl _) hb hs hw, ?_⟩
        intro tg' w h; cases h; exact g
      · rw [if_neg hw]
        by_cases hp : (tg.tm b.timer).period > 0
        · obtain ⟨r1, r2⟩ := runOne_periodic g hb hs now hp
          rw [r1]
          refine ⟨RunEnd.periodic tg b (Cleaned.refl _) hb hs (by omega) hp, ?_⟩
          intro tg' w h
          simp only [Out.bind, Out.ok.injEq, Prod.mk.injEq] at h
          rw [← h.1]; exact r2
        · obtain ⟨h, r0, r1, r2⟩ := runOne_once g hb hs now hp
          rw [r1]
          refine ⟨RunEnd.once tg b h (Cleaned.refl _) hb hs (by omega) (by omega) r0, ?_⟩
          intro tg' w h
          simp only [Out.bind, Out.ok.injEq, Prod.mk.injEq] at h
          rw [← h.1]; exact r2
    | deleted =>
      simp only
      obtain ⟨h, tg1, p1, p2, p3, p4⟩ := pop_deleted g hb hs
      rw [p2]; simp only
      rw [p3]
      have hl := perm_len p1
      have hc := cleaned_popped (dc := tg.deletedCount - 1) p1 hs g.cnt
      have hheap : (popped tg b h .removed (tg.deletedCount - 1)).heap = h := rfl
      have hheap1 : (tg1.setStatus b.timer .removed).heap = h := by
        rw [← hheap, ← p3]
      rw [hheap1]
      by_cases h0 : h.length = 0
      · rw [if_pos h0]
        have e : h = [] := List.eq_nil_of_length_eq_zero h0
        refine ⟨RunEnd.empty _ hc (by rw [hheap]; exact e) ?_, ?_⟩
        · intro c hcm
          have := p1.mem_iff.mpr hcm
          rw [e, List.mem_singleton] at this
          rw [this]; exact hs
        · intro tg' w h'
          simp only [Out.ok.injEq, Prod.mk.injEq] at h'
          rw [← h'.1]; exact p4
      · rw [if_neg h0]
        have nb : ∀ c ∈ h, (popped tg b h .removed (tg.deletedCount - 1)).tm c.timer = tg.tm c.timer := by
          intro c hc
          rw [popped_tm, if_neg]
          intro e
          exact (perm_head p1 g.nodup).2 (e ▸ List.mem_map_of_mem hc)
        obtain ⟨i1, i2⟩ := ih _ p4 (by rw [hheap]; omega) h0
        refine ⟨?_, i2⟩
        revert i1
        generalize runTimer n (popped tg b h .removed (tg.deletedCount - 1)) now = o
        intro i1
        cases i1 with
        | later tg1 b1 c1 c2 c3 c4 => exact RunEnd.later tg1 b1 (hc.trans c1) c2 c3 c4
        | once tg1 b1 h1 c1 c2 c3 c4 c5 c6 => exact RunEnd.once tg1 b1 h1 (hc.trans c1) c2 c3 c4 c5 c6
        | periodic tg1 b1 c1 c2 c3 c4 c5 => exact RunEnd.periodic tg1 b1 (hc.trans c1) c2 c3 c4 c5
        | empty tg1 c1 c2 c3 =>
          refine RunEnd.empty tg1 (hc.trans c1) c2 ?_
          intro c hcm
          rcases List.mem_cons.mp (p1.mem_iff.mpr hcm) with e | e
          · rw [e]; exact hs
          · have := c3 c e
            rw [nb c e] at this; exact this
        | stuck b1 c1 c2 =>
          rw [nb b1 c1] at c2
          exact RunEnd.stuck b1 (p1.mem_iff.mp (List.mem_cons_of_mem _ c1)) c2
    | modifiedEarlier =>
      exact ⟨RunEnd.stuck b hbm (Or.inl hs), fun _ _ h => by cases h⟩
    | modifiedLater =>
      exact ⟨RunEnd.stuck b hbm (Or.inr hs), fun _ _ h => by cases h⟩
    | unset =>
      exact absurd hs ((g.inn b.timer (by simp)).mp (mem_ids.mpr ⟨b, hbm, rfl⟩)).1
    | removed =>
      exact absurd hs ((g.inn b.timer (by simp)).mp (mem_ids.mpr ⟨b, hbm, rfl⟩)).2
    | running => have := g.rest b.timer (by simp); rw [hs] at this; simp [AtRest] at this
    | removing => have := g.rest b.timer (by simp); rw [hs] at this; simp [AtRest] at this
    | modifying => have := g.rest b.timer (by simp); rw [hs] at this; simp [AtRest] at this
    | moving => have := g.rest b.timer (by simp); rw [hs] at this; simp [AtRest] at this

end Memar.Timer.Queue
