import Verif.Timer.TimingProps
import Verif.Timer.HeapProps

/-!
# C21, exactly: when starting a timer returns, panics or deadlocks
-/

namespace Memar.Timer.Queue

open Memar.Timer

/-- `b` is an earliest entry of the queue among those whose timer was not stopped.  The deadline of an
entry is the one the timer had before it was reset, if it was. -/
def FirstAlive (tg : Tg) (b : Bucket Nat) : Prop :=
  b ∈ tg.heap ∧ (tg.tm b.timer).status ≠ .deleted ∧
    ∀ c ∈ tg.heap, (tg.tm c.timer).status ≠ .deleted → b.when ≤ c.when

/-- The timer was reset and the queue has not taken note of it. -/
def WasReset (tg : Tg) (b : Bucket Nat) : Prop :=
  (tg.tm b.timer).status = .modifiedEarlier ∨ (tg.tm b.timer).status = .modifiedLater

theorem cleanLoop_decides {x : Option Nat} (n : Nat) (tg : Tg) (g : Good x tg)
    (hn : tg.heap.length ≤ n) (hal : ∃ b ∈ tg.heap, (tg.tm b.timer).status ≠ .deleted) :
    ∃ b, FirstAlive tg b ∧ ((WasReset tg b ∧ cleanLoop n tg = .deadlock) ∨
      (¬ WasReset tg b ∧ ∃ tg', cleanLoop n tg = .ok tg')) := by
  induction n generalizing tg with
  | zero =>
    obtain ⟨b, hb, _⟩ := hal
    have := List.length_pos_of_mem hb
    omega
  | succ n ih =>
    have hne : tg.heap.length ≠ 0 := by
      obtain ⟨b, hb, _⟩ := hal
      have := List.length_pos_of_mem hb
      omega
    obtain ⟨b, hb⟩ := heap_head hne
    have hbm : b ∈ tg.heap := by
      obtain ⟨h0, e⟩ := List.getElem?_eq_some_iff.mp hb
      rw [← e]; exact List.getElem_mem h0
    have hfirst := C19_first_is_earliest tg.heap g.order b hb
    by_cases hd : (tg.tm b.timer).status = .deleted
    · obtain ⟨h, tg1, p1, p2, p3, p4⟩ := pop_deleted g hb hd
      have hl := perm_len p1
      have nb : ∀ c ∈ h, (popped tg b h .removed (tg.deletedCount - 1)).tm c.timer = tg.tm c.timer := by
        intro c hc
        rw [popped_tm, if_neg]
        intro e
        exact (perm_head p1 g.nodup).2 (e ▸ List.mem_map_of_mem hc)
      have back : ∀ c ∈ tg.heap, (tg.tm c.timer).status ≠ .deleted → c ∈ h := by
        intro c hc hcd
        rcases List.mem_cons.mp (p1.mem_iff.mpr hc) with e | e
        · rw [e] at hcd; exact absurd hd hcd
        · exact e
      have hal' : ∃ c ∈ (popped tg b h .removed (tg.deletedCount - 1)).heap,
          ((popped tg b h .removed (tg.deletedCount - 1)).tm c.timer).status ≠ .deleted := by
        obtain ⟨c, hc, hcd⟩ := hal
        exact ⟨c, back c hc hcd, by rw [nb c (back c hc hcd)]; exact hcd⟩
      have step : cleanLoop (n + 1) tg = cleanLoop n (popped tg b h .removed (tg.deletedCount - 1)) := by
        rw [cleanLoop, hb]
        simp only [hd]
        rw [p2]; simp only
        rw [p3]
      obtain ⟨c, ⟨c1, c2, c3⟩, c4⟩ := ih _ p4 (by show h.length ≤ n; omega) hal'
      have c1' : c ∈ h := c1
      have hw : WasReset (popped tg b h .removed (tg.deletedCount - 1)) c ↔ WasReset tg c := by
        unfold WasReset; rw [nb c c1']
      rw [nb c c1'] at c2
      rw [step]
      rw [hw] at c4
      refine ⟨c, ⟨p1.mem_iff.mp (List.mem_cons_of_mem _ c1'), c2, ?_⟩, c4⟩
      intro e he hed
      exact c3 e (back e he hed) (by rw [nb e (back e he hed)]; exact hed)
    · refine ⟨b, ⟨hbm, hd, fun c hc _ => hfirst c hc⟩, ?_⟩
      rw [cleanLoop, hb]
      simp only
      unfold WasReset
      cases hs : (tg.tm b.timer).status with
      | deleted => exact absurd hs hd
      | modifiedEarlier => left; exact ⟨Or.inl rfl, rfl⟩
      | modifiedLater => left; exact ⟨Or.inr rfl, rfl⟩
      | _ => right; exact ⟨by simp, tg, rfl⟩

/-- What a start of a timer that is not running comes to, in every reachable queue in which not all timers were
stopped: one of the earliest timers that were not stopped decides.  If it was reset, the call deadlocks; if not, it
returns without an error. -/
theorem start_decided (tg : Tg) (h : Reachable tg) (t : Nat) (d now : Int) (hd : d ≥ 1)
    (hs : (tg.tm t).status = .unset) (hal : ∃ b ∈ tg.heap, (tg.tm b.timer).status ≠ .deleted) :
    ∃ b, FirstAlive tg b ∧ ((WasReset tg b ∧ Queue.start tg t d now = .deadlock) ∨
      (¬ WasReset tg b ∧ ∃ tg', Queue.start tg t d now = .ok (tg', none))) := by
  have g := reachable_good h
  have ht : (tg.tm t).timing ≠ true := by
    rw [ne_eq, g.timing t (by simp)]; exact unset_out g (Or.inl hs)
  unfold Queue.start
  rw [if_neg (by omega), if_neg (by rintro (c | c); exact c hs; exact ht c)]
  have gp := start_pre g hs (now + d)
  have hout := unset_out g (Or.inl hs)
  have hsame : ∀ b ∈ tg.heap,
      (((tg.setStatus t .waiting).setWhen t (now + d)).setTiming t true).tm b.timer = tg.tm b.timer := by
    intro b hb
    rw [start_pre_tm, if_neg]
    intro e; apply hout; rw [← e, mem_ids]; exact ⟨b, hb, rfl⟩
  have hheap : (((tg.setStatus t .waiting).setWhen t (now + d)).setTiming t true).heap = tg.heap := rfl
  generalize htg : ((tg.setStatus t .waiting).setWhen t (now + d)).setTiming t true = tp at *
  have hal' : ∃ b ∈ tp.heap, (tp.tm b.timer).status ≠ .deleted := by
    obtain ⟨b, hb, e⟩ := hal
    exact ⟨b, hheap ▸ hb, by rw [hsame b hb]; exact e⟩
  have hne : tp.heap.length ≠ 0 := by
    obtain ⟨b, hb, _⟩ := hal'
    have := List.length_pos_of_mem hb
    omega
  obtain ⟨b, ⟨b1, b2, b3⟩, b4⟩ := cleanLoop_decides _ tp gp (Nat.le_refl _) hal'
  rw [hheap] at b1
  have hw : WasReset tp b ↔ WasReset tg b := by unfold WasReset; rw [hsame b b1]
  rw [hsame b b1] at b2
  rw [hw] at b4
  refine ⟨b, ⟨b1, b2, fun c hc hcd => b3 c (hheap ▸ hc) (by rw [hsame c hc]; exact hcd)⟩, ?_⟩
  rcases b4 with ⟨w, e⟩ | ⟨w, tg', e⟩
  · left
    refine ⟨w, ?_⟩
    unfold addTimer cleanTimers
    rw [if_neg hne, e]; rfl
  · right
    refine ⟨w, ?_⟩
    rcases addTimer_spec gp with ⟨_, tg2, r1, _⟩ | ⟨r1, _, r3⟩ | ⟨r1, _⟩
    · rw [r1]; exact ⟨tg2, rfl⟩
    · obtain ⟨c, hc, hcd⟩ := hal'
      exact absurd (r3 c hc) hcd
    · exfalso
      have hc : cleanTimers tp = .ok tg' := by unfold cleanTimers; rw [if_neg hne, e]
      unfold addTimer at r1
      rw [hc] at r1
      simp only [Out.bind] at r1
      split at r1
      · cases r1
      · split at r1 <;> cases r1

/-- **C274** violated, exactly: in every reachable queue, starting a timer that is not running deadlocks whenever all
earliest timers among those that were not stopped were reset, whatever stopped timers stand in front of them, and
panics exactly if there are timers in the queue and all were stopped. -/
theorem C274_start_fails_violated (tg : Tg) (h : Reachable tg) (t : Nat) (d now : Int) (hd : d ≥ 1)
    (hs : (tg.tm t).status = .unset) :
    ((∃ b ∈ tg.heap, (tg.tm b.timer).status ≠ .deleted) → (∀ b, FirstAlive tg b → WasReset tg b) →
      Queue.start tg t d now = .deadlock) ∧
    (Queue.start tg t d now = .panic ↔ tg.heap ≠ [] ∧ ∀ b ∈ tg.heap, (tg.tm b.timer).status = .deleted) := by
  constructor
  · intro hal hall
    obtain ⟨b, hb, ⟨_, e⟩ | ⟨e, _⟩⟩ := start_decided tg h t d now hd hs hal
    · exact e
    · exact absurd (hall b hb) e
  · constructor
    · intro hp
      by_cases hal : ∃ b ∈ tg.heap, (tg.tm b.timer).status ≠ .deleted
      · obtain ⟨b, hb, ⟨_, e⟩ | ⟨_, tg', e⟩⟩ := start_decided tg h t d now hd hs hal
        · rw [e] at hp; cases hp
        · rw [e] at hp; cases hp
      · refine ⟨?_, fun b hb => Decidable.byContradiction fun hc => hal ⟨b, hb, hc⟩⟩
        intro e
        obtain ⟨tg', r⟩ := C274_start_returns_partial tg h (by rw [e]; simp) (Or.inl e) t d now hd hs
        rw [r] at hp; cases hp
    · intro ⟨h1, h2⟩
      exact C274_start_after_all_stopped_violated tg h h1 h2 t d now hd hs

example : ∃ tg, runCalls [.start 1 5 0, .start 2 10 0, .stop 1, .reset 2 20 0] Tg.init = .ok tg ∧ Queue.start tg 3 7 0 = .deadlock := by
  obtain ⟨tg, e, h⟩ := ends_elim (cs := [.start 1 5 0, .start 2 10 0, .stop 1, .reset 2 20 0])
    (P := fun tg => decide ((tg.tm 3).status = .unset ∧ (∃ b ∈ tg.heap, (tg.tm b.timer).status ≠ .deleted) ∧
      ∀ b ∈ tg.heap, (tg.tm b.timer).status ≠ .deleted → (tg.tm b.timer).status = .modifiedEarlier ∨ (tg.tm b.timer).status = .modifiedLater))
    (by decide +kernel)
  obtain ⟨h1, h2, h3⟩ := of_decide_eq_true h
  exact ⟨tg, e, (C274_start_fails_violated tg (reach e) 3 7 0 (by decide) h1).1 h2 fun b hb => h3 b hb.1 hb.2.1⟩

/-- **C274**, exactly when it holds, up to timers with one and the same deadline: starting a timer returns if the queue is empty
or none of the earliest timers that were not stopped was reset; and whenever it returns, the queue was empty or
one of these was not reset.
Missing: queues in which a timer was reset or all are stopped (refuted:
`C274_start_fails_violated`, `C274_start_after_all_stopped_violated`,
`C274_start_after_reset_violated` and others). -/
theorem C274_start_exact_partial (tg : Tg) (h : Reachable tg) (t : Nat) (d now : Int) (hd : d ≥ 1)
    (hs : (tg.tm t).status = .unset) :
    ((tg.heap = [] ∨ ((∃ b, FirstAlive tg b) ∧ ∀ b, FirstAlive tg b → ¬ WasReset tg b)) →
      ∃ tg', Queue.start tg t d now = .ok (tg', none)) ∧
    ((∃ r, Queue.start tg t d now = .ok r) → tg.heap = [] ∨ ∃ b, FirstAlive tg b ∧ ¬ WasReset tg b) := by
  constructor
  · rintro (e | ⟨⟨b, hb⟩, hall⟩)
    · exact C274_start_returns_partial tg h (by rw [e]; simp) (Or.inl e) t d now hd hs
    · obtain ⟨c, hc, ⟨w, _⟩ | ⟨_, e⟩⟩ := start_decided tg h t d now hd hs ⟨b, hb.1, hb.2.1⟩
      · exact absurd w (hall c hc)
      · exact e
  · rintro ⟨r, hr⟩
    by_cases he : tg.heap = []
    · exact Or.inl he
    · right
      by_cases hal : ∃ b ∈ tg.heap, (tg.tm b.timer).status ≠ .deleted
      · obtain ⟨b, hb, ⟨_, e⟩ | ⟨w, _⟩⟩ := start_decided tg h t d now hd hs hal
        · rw [e] at hr; cases hr
        · exact ⟨b, hb, w⟩
      · have := ((C274_start_fails_violated tg h t d now hd hs).2).2
          ⟨he, fun b hb => Decidable.byContradiction fun hc => hal ⟨b, hb, hc⟩⟩
        rw [this] at hr; cases hr

/-- A queue with a stopped timer in front of a reset one: the start deadlocks, although the first timer was not reset. -/
example : runCalls [.start 1 5 0, .start 2 10 0, .stop 1, .reset 2 20 0, .start 3 7 0] Tg.init = .deadlock ∧
    (∃ tg, runCalls [.start 1 5 0, .start 2 10 0, .start 4 8 0, .stop 1, .reset 2 20 0, .start 3 7 0] Tg.init
      = .ok tg) := by
  constructor
  · exact isDeadlock_elim (by decide +kernel)
  · obtain ⟨tg, e, _⟩ := ends_elim (cs := [.start 1 5 0, .start 2 10 0, .start 4 8 0, .stop 1, .reset 2 20 0, .start 3 7 0])
      (P := fun _ => true) (by decide +kernel)
    exact ⟨tg, e⟩

end Memar.Timer.Queue
