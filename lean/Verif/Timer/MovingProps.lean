import Verif.Timer.Moving
import Verif.Timer.TimingProps

/-!
# C143: moving timers to another core, emptying a queue and checking it
-/

namespace Memar.Timer.Queue
open Memar.Timer

/-! ## The check of the heap -/

theorem verifyLoop_ok (l : List (Bucket Nat)) (n i : Nat) (hi : 1 ≤ i) (hn : i + n ≤ l.length) :
    verifyLoop l n i = .ok () ↔
      ∀ (k : Nat) (b p : Bucket Nat), i ≤ k → k < i + n → l[k]? = some b → l[(k - 1) / 4]? = some p → p.when ≤ b.when := by
  induction n generalizing i with
  | zero =>
    refine ⟨fun _ k b p h1 h2 => by omega, fun _ => rfl⟩
  | succ n ih =>
    have hb : i < l.length := by omega
    have hp : (i - 1) / 4 < l.length := by omega
    have eb := List.getElem?_eq_getElem hb
    have ep := List.getElem?_eq_getElem hp
    have step : verifyAt l i = if l[i].when < l[(i - 1) / 4].when then .fatal else .ok () := by
      unfold verifyAt
      rw [eb, show heapAry = 4 from rfl, ep]
    unfold verifyLoop
    rw [step]
    by_cases hw : l[i].when < l[(i - 1) / 4].when
    · rw [if_pos hw]
      refine ⟨fun h => ?_, fun h => ?_⟩
      · simp [Out.bind] at h
      have := h i _ _ (Nat.le_refl _) (by omega) eb ep
      omega
    · rw [if_neg hw]
      show verifyLoop l n (i + 1) = .ok () ↔ _
      rw [ih (i + 1) (by omega) (by omega)]
      constructor
      · intro h k b p h1 h2 h3 h4
        by_cases e : k = i
        · subst e
          rw [eb] at h3; rw [ep] at h4
          cases h3; cases h4; omega
        · exact h k b p (by omega) (by omega) h3 h4
      · intro h k b p h1 h2 h3 h4
        exact h k b p (by omega) (by omega) h3 h4

/-- C143: the queue's own check passes exactly when no timer is before its parent and the count of timers is
right. -/
theorem C143_verify_exact (tg : Tg) :
    verifyTimerHeap tg = .ok () ↔ HeapOrder tg.heap ∧ tg.timersCount = tg.heap.length := by
  have hl : verifyLoop tg.heap (tg.heap.length - 1) 1 = .ok () ↔ HeapOrder tg.heap := by
    by_cases h0 : tg.heap.length = 0
    · rw [List.length_eq_zero_iff] at h0
      rw [h0]
      exact ⟨fun _ => by intro k b p _ hb; simp at hb, fun _ => rfl⟩
    · rw [verifyLoop_ok _ _ _ (by omega) (by omega)]
      constructor
      · intro h k b p hk hb hp
        have := (List.getElem?_eq_some_iff.mp hb).1
        exact h k b p (by omega) (by omega) hb hp
      · intro h k b p h1 _ hb hp
        exact h k b p (by omega) hb hp
  unfold verifyTimerHeap
  constructor
  · intro h
    cases hv : verifyLoop tg.heap (tg.heap.length - 1) 1 with
    | ok u =>
      rw [hv] at h
      simp only [Out.bind] at h
      split at h
      · cases h
      · rename_i hc
        exact ⟨hl.mp hv, by omega⟩
    | _ => rw [hv] at h; cases h
  · rintro ⟨h1, h2⟩
    rw [hl.mpr h1]
    simp only [Out.bind]
    rw [if_neg (by omega)]

/-- C143: it passes in every queue a program can produce. -/
theorem C143_verify_passes (tg : Tg) (h : Reachable tg) : verifyTimerHeap tg = .ok () :=
  (C143_verify_exact tg).mpr ⟨(C63_bookkeeping tg h).1, (C63_bookkeeping tg h).2.2.2.1⟩

example : ∃ tg, runCalls [.start 1 10 0, .start 2 5 0, .stop 1] Tg.init = .ok tg ∧
    decide (tg.heap.length = 2 ∧ tg.timersCount = 2) = true :=
  ends_elim (by decide +kernel)

/-! ## Moving -/

theorem moveLoop_armed (l : List (Bucket Nat)) (tg : Tg)
    (hs : ∀ b ∈ l, (tg.tm b.timer).status = .deleted ∨ (tg.tm b.timer).status = .waiting ∨
      (tg.tm b.timer).status = .modifiedEarlier ∨ (tg.tm b.timer).status = .modifiedLater)
    (hn : (l.map (·.timer)).Nodup) (ha : ∃ b ∈ l, (tg.tm b.timer).status ≠ .deleted) :
    moveLoop l tg = .deadlock := by
  induction l generalizing tg with
  | nil => obtain ⟨b, hb, _⟩ := ha; cases hb
  | cons b l ih =>
    simp only [moveLoop, moveStep]
    rcases hs b (by simp) with e | e | e | e
    · rw [e]
      simp only [Out.bind]
      have hnb : ∀ c ∈ l, c.timer ≠ b.timer := by
        intro c hc he
        simp only [List.map_cons, List.nodup_cons] at hn
        exact hn.1 (he ▸ List.mem_map_of_mem hc)
      have same : ∀ c ∈ l, (((tg.setStatus b.timer .removed).setTiming b.timer false).tm c.timer).status =
          (tg.tm c.timer).status := by
        intro c hc
        rw [setTiming_tm]
        simp only [hnb c hc, if_false]
        rw [setStatus_tm, if_neg (hnb c hc)]
      apply ih
      · intro c hc; rw [same c hc]; exact hs c (by simp [hc])
      · exact (List.nodup_cons.mp hn).2
      · obtain ⟨c, hc, hne⟩ := ha
        rcases List.mem_cons.mp hc with rfl | hc
        · exact absurd e hne
        · exact ⟨c, hc, by rw [same c hc]; exact hne⟩
    all_goals (rw [e]; rfl)

theorem heap_status {tg : Tg} (h : Reachable tg) (b : Bucket Nat) (hb : b ∈ tg.heap) :
    (tg.tm b.timer).status = .deleted ∨ (tg.tm b.timer).status = .waiting ∨
      (tg.tm b.timer).status = .modifiedEarlier ∨ (tg.tm b.timer).status = .modifiedLater := by
  have g := reachable_good h
  have h1 := (g.inn b.timer (by simp)).mp (mem_ids.mpr ⟨b, hb, rfl⟩)
  rcases g.rest b.timer (by simp) with e | e | e | e | e | e <;> simp_all

/-- C232 violated: as soon as one timer of the queue is armed, moving the timers to another core never returns: the
receiving queue's lock is taken twice. The same holds for emptying the queue. -/
theorem C232_move_armed_violated (tg : Tg) (h : Reachable tg) (same : Bool) (t : Nat)
    (ha : (armed tg).due t ≠ none) : moveTimersTo same tg = .deadlock ∧ reinit same tg = .deadlock := by
  have g := reachable_good h
  have hm : t ∈ tg.heap.map (·.timer) := ((C63_bookkeeping tg h).2.2.1 t).mpr (.inl ha)
  obtain ⟨b, hb, rfl⟩ := List.mem_map.mp hm
  have hlen : tg.heap.length > 0 := List.length_pos_of_mem hb
  have : moveTimersTo same tg = .deadlock := by
    unfold moveTimersTo
    rw [if_pos hlen]
    split
    · rfl
    · apply moveLoop_armed tg.heap tg (heap_status h) (C63_bookkeeping tg h).2.1
      refine ⟨b, hb, fun e => ha ?_⟩
      simp [armed, e]
  exact ⟨this, by unfold reinit; rw [this]; rfl⟩

example : ∃ tg, Reachable tg ∧ moveTimersTo false tg = .deadlock := by
  obtain ⟨tg, e, h⟩ := ends_elim (cs := [.start 1 10 0, .start 2 5 0, .stop 1]) (P := fun tg => decide ((armed tg).due 2 ≠ none)) (by decide +kernel)
  exact ⟨tg, reach e, (C232_move_armed_violated tg (reach e) false 2 (of_decide_eq_true h)).1⟩

/-- C232 violated: nor does it return when the queue is not empty and belongs to the core that moves, which is the
ordinary case. -/
theorem C232_move_to_itself_violated (tg : Tg) (h : tg.heap ≠ []) :
    moveTimersTo true tg = .deadlock ∧ reinit true tg = .deadlock := by
  have hlen : tg.heap.length > 0 := List.length_pos_iff.mpr h
  have : moveTimersTo true tg = .deadlock := by unfold moveTimersTo; rw [if_pos hlen, if_pos rfl]
  exact ⟨this, by unfold reinit; rw [this]; rfl⟩

example : ∃ tg, runCalls [.start 1 10 0, .stop 1] Tg.init = .ok tg ∧ reinit true tg = .deadlock := by
  obtain ⟨tg, e, h⟩ := ends_elim (cs := [.start 1 10 0, .stop 1]) (P := fun tg => !tg.heap.isEmpty) (by decide +kernel)
  exact ⟨tg, e, (C232_move_to_itself_violated tg (by simpa using h)).2⟩

/-- The timers `ids` set free, the others as they are. -/
def freed (ids : List Nat) (tm : Nat → Tm) (t : Nat) : Tm :=
  if t ∈ ids then { tm t with status := .removed, timing := false } else tm t

theorem moveLoop_stopped (l : List (Bucket Nat)) (tg : Tg)
    (hs : ∀ b ∈ l, (tg.tm b.timer).status = .deleted) (hn : (l.map (·.timer)).Nodup) :
    moveLoop l tg = .ok { tg with tm := freed (l.map (·.timer)) tg.tm } := by
  induction l generalizing tg with
  | nil =>
    have : freed [] tg.tm = tg.tm := by funext t; simp [freed]
    simp [moveLoop, this]
  | cons b l ih =>
    simp only [moveLoop, moveStep, hs b (by simp), Out.bind]
    have hn' := List.nodup_cons.mp hn
    have hn1 : b.timer ∉ l.map (·.timer) := hn'.1
    have hnb : ∀ c ∈ l, c.timer ≠ b.timer := by
      intro c hc he
      apply hn1
      rw [← he]
      exact List.mem_map_of_mem (f := fun b : Bucket Nat => b.timer) hc
    rw [ih]
    · congr 1
      simp only [Tg.setTiming, Tg.setStatus, Tg.mk.injEq, and_true]
      funext u
      by_cases hu : u = b.timer
      · subst hu
        unfold freed
        rw [if_neg hn1]
        simp
      · unfold freed
        simp [hu]
    · intro c hc
      rw [setTiming_tm]
      simp only [hnb c hc, if_false]
      rw [setStatus_tm, if_neg (hnb c hc)]
      exact hs c (by simp [hc])
    · exact hn'.2

theorem all_stopped {tg : Tg} (h : Reachable tg) (hn : ∀ t, (armed tg).due t = none) :
    ∀ b ∈ tg.heap, (tg.tm b.timer).status = .deleted := by
  intro b hb
  have := hn b.timer
  rcases heap_status h b hb with e | e | e | e
  · exact e
  all_goals simp [armed, e] at this

/-- C232: when no timer is armed, emptying a queue from another core returns, with an empty queue in which no timer is
armed, every count exact and every timer that had been stopped free again.
Missing: queues with armed timers, and moving timers (refuted: `C232_move_armed_violated`,
`C232_move_to_itself_violated`, `C232_move_stopped_violated`). -/
theorem C232_reinit_partial (tg : Tg) (h : Reachable tg) (hn : ∀ t, (armed tg).due t = none) :
    ∃ tg', reinit false tg = .ok tg' ∧ tg'.heap = [] ∧ tg'.timersCount = 0 ∧ tg'.deletedCount = 0 ∧
      tg'.timer0When = 0 ∧ (∀ t, (armed tg').due t = none) ∧
      (∀ t, (tg.tm t).status = .deleted → (tg'.tm t).status = .removed ∧ (tg'.tm t).timing = false) ∧
      (∀ t, (tg.tm t).status ≠ .deleted → tg'.tm t = tg.tm t) ∧ tg'.fired = tg.fired := by
  have hb := C63_bookkeeping tg h
  have hmem : ∀ t, t ∈ tg.heap.map (·.timer) ↔ (tg.tm t).status = .deleted := by
    intro t; rw [hb.2.2.1 t]; simp [hn t]
  have hm : moveTimersTo false tg = .ok { tg with tm := freed (tg.heap.map (·.timer)) tg.tm } := by
    unfold moveTimersTo
    by_cases hl : tg.heap.length > 0
    · rw [if_pos hl]
      exact moveLoop_stopped tg.heap tg (all_stopped h hn) hb.2.1
    · rw [if_neg hl]
      have : tg.heap = [] := List.length_eq_zero_iff.mp (by omega)
      have e : freed [] tg.tm = tg.tm := by funext t; simp [freed]
      rw [this, List.map_nil, e]
      obtain ⟨_, _, _, _, _, _, _⟩ := tg
      simp only at this
      rw [this]
  refine ⟨{ tg with tm := freed (tg.heap.map (·.timer)) tg.tm, timer0When := 0, modifiedEarliest := 0, timersCount := 0, deletedCount := 0, heap := [] }, by unfold reinit; rw [hm]; rfl, rfl, rfl, rfl, rfl, ?_, ?_, ?_, rfl⟩
  · intro t
    by_cases ht : t ∈ tg.heap.map (·.timer)
    · simp only [armed, freed, ht, if_true]
    · have := hn t
      simp only [armed] at this
      simp only [armed, freed, ht, if_false]
      exact this
  · intro t ht
    simp only [freed, (hmem t).mpr ht, if_true]
    trivial
  · intro t ht
    have : t ∉ tg.heap.map (·.timer) := fun h => ht ((hmem t).mp h)
    simp only [freed, this, if_false]

example : ∃ tg, runCalls [.start 1 10 0, .start 2 5 0, .stop 1, .stop 2] Tg.init = .ok tg ∧ tg.heap.length = 2 ∧ (tg.tm 1).status = .deleted ∧
    ∃ tg', reinit false tg = .ok tg' ∧ tg'.heap = [] ∧ (tg'.tm 1).status = .removed := by
  obtain ⟨tg, e, h⟩ := ends_elim (cs := [.start 1 10 0, .start 2 5 0, .stop 1, .stop 2])
    (P := fun tg => match clearDeleted tg with
      | .ok tg' => decide (tg.heap.length = 2 ∧ (tg.tm 1).status = .deleted ∧ tg'.heap.length = 0)
      | _ => false) (by decide +kernel)
  obtain ⟨tg1, c1, -, -, -, -, c2, -⟩ := C64_sweep_exact tg (reach e)
  simp only [c1] at h
  obtain ⟨h1, h2, h3⟩ := of_decide_eq_true h
  obtain ⟨tg', r1, r2, -, -, -, -, r3, -⟩ := C232_reinit_partial tg (reach e) fun t => Decidable.byContradiction fun hd => by
    have := (c2 t).mpr hd
    rw [List.length_eq_zero_iff.mp h3] at this
    simp at this
  exact ⟨tg, e, h1, h2, tg', r1, r2, (r3 1 h2).1⟩

/-- C232 violated: moving stopped timers away leaves them in the queue they came from, marked as removed, and the next
time its scheduler looks at its timers the program is ended. -/
theorem C232_move_stopped_violated (tg : Tg) (h : Reachable tg) (hn : ∀ t, (armed tg).due t = none)
    (hne : tg.heap ≠ []) :
    ∃ tg', moveTimersTo false tg = .ok tg' ∧ tg'.heap = tg.heap ∧
      ∀ fuel now, wakeTime tg' ≠ 0 → wakeTime tg' ≤ now → checkTimers fuel tg' now = .fatal := by
  have hb := C63_bookkeeping tg h
  have hlen : tg.heap.length > 0 := List.length_pos_iff.mpr hne
  refine ⟨{ tg with tm := freed (tg.heap.map (·.timer)) tg.tm }, by unfold moveTimersTo; rw [if_pos hlen]; exact moveLoop_stopped tg.heap tg (all_stopped h hn) hb.2.1, rfl, ?_⟩
  intro fuel now h0 hw
  generalize htg : ({ tg with tm := freed (tg.heap.map (·.timer)) tg.tm } : Tg) = tg'
    at h0 hw ⊢
  have hheap : tg'.heap = tg.heap := by rw [← htg]
  have hst : ∀ b ∈ tg'.heap, (tg'.tm b.timer).status = .removed := by
    intro b hbm
    rw [hheap] at hbm
    rw [← htg]
    simp only [freed, List.mem_map_of_mem (f := fun b : Bucket Nat => b.timer) hbm, if_true]
  obtain ⟨b, l, hl⟩ := List.exists_cons_of_ne_nil hne
  rw [← hheap] at hl
  have hbst := hst b (by rw [hl]; simp)
  unfold checkTimers
  rw [if_neg h0, if_neg (by omega), if_pos (by rw [hheap]; exact hlen)]
  unfold adjustTimers
  by_cases hm : tg'.modifiedEarliest = 0 ∨ tg'.modifiedEarliest > now
  · rw [if_pos hm]
    show ((runAll fuel tg' now).bind _) = _
    have hr : runTimer tg'.heap.length tg' now = .fatal := by
      unfold runTimer
      rw [show tg'.heap[0]? = some b by rw [hl]; rfl]
      simp only [hbst]
    cases fuel with
    | zero =>
      unfold runAll
      rw [if_pos (by rw [hheap]; exact hlen), hr]
      rfl
    | succ n =>
      unfold runAll
      rw [if_pos (by rw [hheap]; exact hlen), hr]
      rfl
  · rw [if_neg hm]
    have ha : adjustLoop tg'.heap.length 0 { tg' with modifiedEarliest := 0 } [] = .fatal := by
      unfold adjustLoop
      rw [dif_pos (by rw [hheap]; exact hlen)]
      have : ({ tg' with modifiedEarliest := 0 } : Tg).heap[0]? = some b := by
        show tg'.heap[0]? = _; rw [hl]; rfl
      simp only [this, hbst]
    rw [ha]
    rfl

example : ∃ tg, runCalls [.start 1 10 0, .start 2 5 0, .stop 1, .stop 2] Tg.init = .ok tg ∧
    decide (tg.heap.length = 2 ∧ (armed tg).due 1 = none ∧ (armed tg).due 2 = none ∧ wakeTime tg = 5) = true :=
  ends_elim (by decide +kernel)

end Memar.Timer.Queue
