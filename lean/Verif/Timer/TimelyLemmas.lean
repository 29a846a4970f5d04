import Verif.Timer.CheckLemmas

/-!
# Lemmas about running timers in time, for queues without periodic timers
-/

namespace Memar.Timer.Queue

open Memar.Timer

/-- The deadline stored in the heap, or `timerModifiedEarliest`, is no later than the timer's own
deadline. -/
def entOK (tg : Tg) (b : Bucket Nat) : Prop :=
  0 < b.when ∧ 0 < (tg.tm b.timer).when ∧
    (b.when ≤ (tg.tm b.timer).when ∨
      (tg.modifiedEarliest ≠ 0 ∧ tg.modifiedEarliest ≤ (tg.tm b.timer).when))

structure Timely (tg : Tg) : Prop where
  per : ∀ t, (tg.tm t).period = 0
  me : 0 ≤ tg.modifiedEarliest
  ent : ∀ b ∈ tg.heap, entOK tg b

theorem timely_init : Timely Tg.init := ⟨fun _ => rfl, by simp [Tg.init], by simp [Tg.init]⟩

theorem cleaned_same {x : Option Nat} {tg tg1 : Tg} (g1 : Good x tg1) (hc : Cleaned tg tg1)
    {b : Bucket Nat} (hb : b ∈ tg1.heap) : tg1.tm b.timer = tg.tm b.timer := by
  have hm := mem_ids.mpr ⟨b, hb, rfl⟩
  have hx : x ≠ some b.timer := fun e => g1.out _ e hm
  rcases hc.1 b.timer with e | ⟨_, _, e⟩
  · exact e
  · exact absurd (by rw [e]) ((g1.inn _ hx).mp hm).2

theorem cleaned_ent {x : Option Nat} {tg tg1 : Tg} (g1 : Good x tg1) (hc : Cleaned tg tg1)
    (h : ∀ b ∈ tg.heap, x ≠ some b.timer → entOK tg b) : ∀ b ∈ tg1.heap, entOK tg1 b := by
  intro b hb
  have hm := mem_ids.mpr ⟨b, hb, rfl⟩
  have hx : x ≠ some b.timer := fun e => g1.out _ e hm
  have := h b (hc.2.2.1 b hb) hx
  unfold entOK at this ⊢
  rw [cleaned_same g1 hc hb]
  rcases hc.2.2.2 with e | e
  · rw [e]; exact this
  · rw [e] at hb; cases hb

theorem cleaned_timely {tg tg1 : Tg} (g1 : Good none tg1) (hc : Cleaned tg tg1)
    (h : Timely tg) (hme : 0 ≤ tg1.modifiedEarliest) : Timely tg1 := by
  refine ⟨fun t => ?_, hme, cleaned_ent g1 hc fun b hb _ => h.ent b hb⟩
  rw [(cleaned_armed hc t).2]; exact h.per t

/-- Whether `timerModifiedEarliest` can be negative: never. -/
def MeOK (tg tg1 : Tg) : Prop := tg1.modifiedEarliest = tg.modifiedEarliest ∨ tg1.modifiedEarliest = 0

theorem cleanLoop_me (n : Nat) {tg tg1 : Tg} (h : cleanLoop n tg = .ok tg1) : MeOK tg tg1 := by
  induction n generalizing tg with
  | zero =>
    rw [cleanLoop] at h
    split at h
    · cases h
    · split at h
      · split at h <;> cases h
      · cases h
      · cases h
      · cases h; exact Or.inl rfl
  | succ n ih =>
    rw [cleanLoop] at h
    split at h
    · cases h
    · rename_i b hb
      split at h
      · obtain ⟨hh, _, _, r⟩ := deleteTimer0_ok (tg.setStatus b.timer .removing) b hb
        rw [r] at h
        simp only at h
        have := ih h
        unfold MeOK at this ⊢
        simp only [Tg.setStatus, Tg.setTiming] at this
        split at this
        · right; rcases this with e | e <;> exact e
        · exact this
      · cases h
      · cases h
      · cases h; exact Or.inl rfl

theorem addTimer_me {tg tg1 : Tg} {t : Nat} (h : addTimer tg t = .ok tg1) : MeOK tg tg1 := by
  unfold addTimer at h
  cases hc : cleanTimers tg with
  | ok tg2 =>
    rw [hc] at h
    simp only [Out.bind] at h
    have h2 : MeOK tg tg2 := by
      unfold cleanTimers at hc
      split at hc
      · cases hc; exact Or.inl rfl
      · exact cleanLoop_me _ hc
    split at h
    · cases h
    · split at h
      · cases h
      · cases h
        unfold MeOK at h2 ⊢
        split <;> exact h2
  | _ => rw [hc] at h; cases h

theorem meOK_nonneg {tg tg1 : Tg} (h : MeOK tg tg1) (h0 : 0 ≤ tg.modifiedEarliest) :
    0 ≤ tg1.modifiedEarliest := by
  rcases h with e | e <;> rw [e]
  · exact h0
  · exact Int.le_refl 0

theorem start_me {tg tg' : Tg} {t : Nat} {d now : Int} {r : Option Err}
    (h : start tg t d now = .ok (tg', r)) : MeOK tg tg' := by
  unfold start at h
  split at h
  · cases h; exact Or.inl rfl
  · split at h
    · cases h; exact Or.inl rfl
    · cases ha : addTimer (((tg.setStatus t .waiting).setWhen t (now + d)).setTiming t true) t with
      | ok tg1 =>
        rw [ha] at h; cases h
        exact (addTimer_me ha : MeOK (((tg.setStatus t .waiting).setWhen t (now + d)).setTiming t true) _)
      | _ => rw [ha] at h; cases h

/-- Inserting a timer with a positive deadline. -/
theorem added_ent {tg1 tg' : Tg} {t : Nat} {hp : List (Bucket Nat)} {w : Int} (hw : 0 < w)
    (g1 : Good (some t) tg1)
    (h1 : ∀ b ∈ tg1.heap, entOK tg1 b) (hperm : (⟨t, w⟩ :: tg1.heap).Perm hp)
    (hheap : tg'.heap = hp) (hme : tg'.modifiedEarliest = tg1.modifiedEarliest)
    (hother : ∀ u, u ≠ t → tg'.tm u = tg1.tm u) (hwt : (tg'.tm t).when = w) :
    ∀ b ∈ tg'.heap, entOK tg' b := by
  intro b hb
  rw [hheap] at hb
  rcases List.mem_cons.mp (hperm.mem_iff.mpr hb) with e | e
  · subst e
    refine ⟨hw, ?_, Or.inl ?_⟩
    · simp only; rw [hwt]; exact hw
    · simp only; rw [hwt]; exact Int.le_refl _
  · have hne : b.timer ≠ t := fun e' => g1.out t rfl (e' ▸ mem_ids.mpr ⟨b, e, rfl⟩)
    have := h1 b e
    unfold entOK at this ⊢
    rw [hother _ hne, hme]; exact this

theorem start_timely {tg tg' : Tg} (g : Good none tg) (k : Timely tg) {t : Nat} {d now : Int}
    (hnow : 0 ≤ now) {r : Option Err} (h : start tg t d now = .ok (tg', r)) : Timely tg' := by
  have hme := meOK_nonneg (start_me h) k.me
  rcases start_ok g h with ⟨_, e⟩ | ⟨_, hd, _, _, tg1, hp, e0, e1, e3, e4, e2⟩
  · rw [e]; exact k
  · subst e2
    have hpre : ∀ b ∈ tg.heap, some t ≠ some b.timer →
        entOK (((tg.setStatus t .waiting).setWhen t (now + d)).setTiming t true) b := by
      intro b hb hne
      have := k.ent b hb
      unfold entOK at this ⊢
      rw [start_pre_tm, if_neg (fun e => hne (by rw [e]))]
      exact this
    have hent := cleaned_ent e0 e1 hpre
    refine ⟨fun u => ?_, hme, added_ent (by omega) e0 hent e4 rfl rfl (fun u hu => added_other hu) ?_⟩
    · by_cases e : u = t
      · subst e; rw [added_self, e3]; exact k.per u
      · rw [added_other e, (cleaned_armed e1 u).2, start_pre_tm, if_neg e]; exact k.per u
    · rw [added_self, e3]

theorem stop_timely {tg tg' : Tg} (g : Good none tg) (k : Timely tg) {t : Nat} {r : Option Err}
    (h : stop tg t = .ok (tg', r)) : Timely tg' := by
  obtain ⟨tg2, r2, q1, _, _, q4, q5, _, q6, q7⟩ := stop_ok g t
  rw [q1] at h; cases h
  have hw : ∀ u, (tg'.tm u).when = (tg.tm u).when ∧ (tg'.tm u).period = (tg.tm u).period := by
    intro u
    by_cases e : u = t
    · subst e; rcases q7 with ⟨q, _⟩ | ⟨q, _⟩ <;> rw [q] <;> exact ⟨rfl, rfl⟩
    · rw [q6 u e]; exact ⟨rfl, rfl⟩
  refine ⟨fun u => by rw [(hw u).2]; exact k.per u, by rw [q5]; exact k.me, fun b hb => ?_⟩
  rw [q4] at hb
  have := k.ent b hb
  unfold entOK at this ⊢
  rw [(hw b.timer).1, q5]; exact this

theorem updateModified_me (tg : Tg) {w : Int} (hw : 0 < w) (h0 : 0 ≤ tg.modifiedEarliest) :
    (updateModified tg w).modifiedEarliest ≠ 0 ∧ (updateModified tg w).modifiedEarliest ≤ w ∧
    0 ≤ (updateModified tg w).modifiedEarliest ∧
    (tg.modifiedEarliest ≠ 0 → (updateModified tg w).modifiedEarliest ≤ tg.modifiedEarliest) := by
  unfold updateModified
  split
  · refine ⟨?_, ?_, ?_, ?_⟩ <;> omega
  · refine ⟨?_, ?_, ?_, ?_⟩ <;> simp only <;> omega

theorem reset_me {tg tg' : Tg} {t : Nat} {d now : Int} {r : Option Err} (g : Good none tg)
    (h : reset tg t d now = .ok (tg', r)) (hout : t ∉ tg.ids) : MeOK tg tg' := by
  unfold reset at h
  split at h
  · cases h; exact Or.inl rfl
  · have key : resetTail (tg.setStatus t .modifying) t d now true = .ok (tg', r) → MeOK tg tg' := by
      intro hh
      have e : resetTail (tg.setStatus t .modifying) t d now true =
          (addTimer (resetPre tg t d now) t).bind fun tg2 => .ok (tg2.setStatus t .waiting, none) := rfl
      rw [e] at hh
      cases ha : addTimer (resetPre tg t d now) t with
      | ok tg1 =>
        rw [ha] at hh; cases hh
        have := addTimer_me ha
        unfold MeOK at this ⊢
        rw [(resetPre_same tg t d now).2.2.2.2.2] at this
        exact this
      | _ => rw [ha] at hh; cases hh
    have hin := fun a b => hout (in_heap g a b)
    cases hs : (tg.tm t).status with
    | unset => rw [hs] at h; exact key h
    | removed => rw [hs] at h; exact key h
    | _ => exact absurd (hin (by rw [hs]; simp) (by rw [hs]; simp)) id

theorem reset_timely {tg tg' : Tg} (g : Good none tg) (k : Timely tg) {t : Nat} {d now : Int}
    (hnow : 0 ≤ now) {r : Option Err} (h : reset tg t d now = .ok (tg', r)) : Timely tg' := by
  have hrp : resetPeriod (tg.tm t) d = 0 := by
    unfold resetPeriod; rw [k.per]; simp
  rcases reset_ok g h with ⟨_, e⟩ | ⟨_, hd, hin, _, _, q1, q2, q3, q4, q5⟩ |
    ⟨_, hd, hout, _, tg1, hp, e0, e1, e3, e4, e2⟩
  · rw [e]; exact k
  · have hper : ∀ u, (tg'.tm u).period = 0 := by
      intro u
      by_cases e : u = t
      · subst e; rw [q4, hrp]
      · rw [q2 u e]; exact k.per u
    have hw : 0 < now + d := by omega
    rcases q5 with ⟨_, q6, q7⟩ | ⟨_, q6, q7⟩
    · obtain ⟨m1, m2, m3, m4⟩ := updateModified_me tg hw k.me
      refine ⟨hper, by rw [q7]; exact m3, fun b hb => ?_⟩
      rw [q1] at hb
      obtain ⟨b1, b2, b3⟩ := k.ent b hb
      by_cases e : b.timer = t
      · refine ⟨b1, by rw [e, q3]; exact hw, Or.inr ?_⟩
        rw [q7, e, q3]; exact ⟨m1, m2⟩
      · refine ⟨b1, by rw [q2 _ e]; exact b2, ?_⟩
        rw [q2 _ e, q7]
        rcases b3 with b3 | ⟨b3, b4⟩
        · exact Or.inl b3
        · have := m4 b3; exact Or.inr ⟨m1, by omega⟩
    · refine ⟨hper, by rw [q7]; exact k.me, fun b hb => ?_⟩
      rw [q1] at hb
      obtain ⟨b1, b2, b3⟩ := k.ent b hb
      by_cases e : b.timer = t
      · rw [e] at b3
        refine ⟨b1, by rw [e, q3]; exact hw, ?_⟩
        rw [q7, e, q3]
        rcases b3 with b3 | ⟨b3, b4⟩
        · left; omega
        · right; exact ⟨b3, by omega⟩
      · refine ⟨b1, by rw [q2 _ e]; exact b2, ?_⟩
        rw [q2 _ e, q7]; exact b3
  · have hme := meOK_nonneg (reset_me g h hout) k.me
    subst e2
    have hpre : ∀ b ∈ (resetPre tg t d now).heap, some t ≠ some b.timer → entOK (resetPre tg t d now) b := by
      intro b hb hne
      rw [(resetPre_same tg t d now).1] at hb
      have := k.ent b hb
      unfold entOK at this ⊢
      rw [resetPre_tm, if_neg (fun e => hne (by rw [e])), (resetPre_same tg t d now).2.2.2.2.2]
      exact this
    have hent := cleaned_ent e0 e1 hpre
    refine ⟨fun u => ?_, hme, added_ent (by omega) e0 hent e4 rfl rfl ?_ ?_⟩
    · rw [setStatus_tm]
      by_cases e : u = t
      · subst e; rw [if_pos rfl, added_self, e3]; exact hrp
      · rw [if_neg e, added_other e, (cleaned_armed e1 u).2, resetPre_tm, if_neg e]; exact k.per u
    · intro u hu; rw [setStatus_tm, if_neg hu, added_other hu]
    · rw [setStatus_tm, if_pos rfl, added_self, e3]

/-! ## `CheckTimers` -/

/-- Nothing is due. -/
def Quiet (tg : Tg) (now : Int) : Prop := ∀ t w, (armed tg).due t = some w → now < w

theorem due_in_heap {tg : Tg} (g : Good none tg) {t : Nat} {w : Int}
    (h : (armed tg).due t = some w) : (∃ b ∈ tg.heap, b.timer = t) ∧ (tg.tm t).when = w := by
  have hd : dueOf (tg.tm t) = some w := h
  unfold dueOf at hd
  constructor
  · apply mem_ids.mp
    apply in_heap g <;> intro hs <;> rw [hs] at hd <;> cases hd
  · split at hd <;> cases hd <;> rfl

theorem quiet_of_bound {tg : Tg} {now : Int} (g : Good none tg) (k : Timely tg)
    (h1 : ∀ b ∈ tg.heap, now < b.when)
    (h2 : tg.modifiedEarliest = 0 ∨ now < tg.modifiedEarliest) : Quiet tg now := by
  intro t w h
  obtain ⟨⟨b, hb, e⟩, hw⟩ := due_in_heap g h
  obtain ⟨_, _, b3⟩ := k.ent b hb
  have := h1 b hb
  rw [e, hw] at b3
  omega

theorem head_bound {tg : Tg} {b : Bucket Nat} {now : Int} (g : Good none tg) (hb : tg.heap[0]? = some b)
    (h : now < b.when) : ∀ c ∈ tg.heap, now < c.when := by
  intro c hc
  have h0 := (List.getElem?_eq_some_iff.mp hb).1
  obtain ⟨k, hk⟩ := List.mem_iff_getElem?.mp hc
  have hk' := (List.getElem?_eq_some_iff.mp hk).1
  have := root_min tg.heap ((ord_iff _).mp g.order) k hk'
  rw [W_some hb, W_some hk] at this
  omega

theorem popped_me {tg : Tg} {b : Bucket Nat} {h : List (Bucket Nat)} {s : Status} {dc : Int}
    (hp : (b :: h).Perm tg.heap) (hcnt : tg.timersCount = tg.heap.length) :
    (popped tg b h s dc).modifiedEarliest = tg.modifiedEarliest ∨
      ((popped tg b h s dc).modifiedEarliest = 0 ∧ h = []) := by
  show (if tg.timersCount - 1 = 0 then 0 else tg.modifiedEarliest) = _ ∨
    ((if tg.timersCount - 1 = 0 then 0 else tg.modifiedEarliest) = 0 ∧ _)
  have hl := hp.length_eq
  rw [List.length_cons] at hl
  by_cases e : h = []
  · right; rw [if_pos]
    · exact ⟨rfl, e⟩
    · subst e; simp only [List.length_nil] at hl; omega
  · left; rw [if_neg]
    have := List.length_pos_iff.mpr e
    omega

/-- One `runTimer` on a queue without periodic timers. -/
theorem runTimer_timely (n : Nat) {tg tg' : Tg} {now w : Int} (g : Good none tg) (k : Timely tg)
    (hm : tg.modifiedEarliest = 0 ∨ now < tg.modifiedEarliest)
    (hn : tg.heap.length ≤ n) (hne : tg.heap.length ≠ 0)
    (h : runTimer n tg now = .ok (tg', w)) :
    Good none tg' ∧ Timely tg' ∧ (tg'.modifiedEarliest = 0 ∨ now < tg'.modifiedEarliest) ∧
      (w ≠ 0 → Quiet tg' now) := by
  induction n generalizing tg with
  | zero => omega
  | succ n ih =>
    have g' := (runTimer_spec _ tg now g hn hne).2 _ _ h
    obtain ⟨b, hb⟩ := heap_head hne
    have hbm := head_mem hb
    rw [runTimer, hb] at h
    simp only at h
    cases hs : (tg.tm b.timer).status with
    | waiting =>
      rw [hs] at h
      simp only at h
      have hsame : b.when = (tg.tm b.timer).when := by
        rcases g.same b hbm hs with e | e
        · exact e
        · rw [k.per] at e; omega
      split at h
      · rename_i hw
        cases h
        refine ⟨g, k, hm, fun _ => quiet_of_bound g k (head_bound g hb ?_) hm⟩
        omega
      · obtain ⟨hh, r0, r1, r2⟩ := runOne_once g hb hs now (by rw [k.per]; omega)
        rw [r1] at h
        simp only [Out.bind, Out.ok.injEq, Prod.mk.injEq] at h
        obtain ⟨h1, h2⟩ := h
        have htm : ∀ u, (ranOnce tg b hh now).tm u =
            if u = b.timer then { tg.tm u with timing := false, status := .unset } else tg.tm u :=
          fun u => popped_tm tg b hh .unset tg.deletedCount u
        have hmm : (ranOnce tg b hh now).modifiedEarliest = tg.modifiedEarliest ∨
            ((ranOnce tg b hh now).modifiedEarliest = 0 ∧ hh = []) :=
          popped_me (s := .unset) (dc := tg.deletedCount) r0 g.cnt
        subst h1
        refine ⟨r2, ⟨fun u => ?_, ?_, ?_⟩, ?_, fun e => absurd h2.symm e⟩
        · rw [htm]; split <;> exact k.per u
        · rcases hmm with e | ⟨e, _⟩ <;> rw [e]
          · exact k.me
          · exact Int.le_refl 0
        · intro c hc
          have hc' : c ∈ hh := hc
          have hcm := r0.mem_iff.mp (List.mem_cons_of_mem b hc')
          have hne' : c.timer ≠ b.timer := by
            intro e
            exact (perm_head r0 g.nodup).2 (e ▸ List.mem_map_of_mem hc')
          have := k.ent c hcm
          unfold entOK at this ⊢
          rw [htm, if_neg hne']
          rcases hmm with e | ⟨_, e⟩
          · rw [e]; exact this
          · rw [e] at hc'; cases hc'
        · rcases hmm with e | ⟨e, _⟩ <;> rw [e]
          · exact hm
          · exact Or.inl rfl
    | deleted =>
      rw [hs] at h
      simp only at h
      obtain ⟨hh, tg1, p1, p2, p3, p4⟩ := pop_deleted g hb hs
      rw [p2] at h; simp only at h
      rw [p3] at h
      have hheap1 : (tg1.setStatus b.timer .removed).heap = hh := by
        have : (popped tg b hh .removed (tg.deletedCount - 1)).heap = hh := rfl
        rw [← this, ← p3]
      rw [hheap1] at h
      have hc := cleaned_popped (dc := tg.deletedCount - 1) p1 hs g.cnt
      have hmm : (popped tg b hh .removed (tg.deletedCount - 1)).modifiedEarliest = tg.modifiedEarliest ∨
            ((popped tg b hh .removed (tg.deletedCount - 1)).modifiedEarliest = 0 ∧ hh = []) :=
        popped_me p1 g.cnt
      have k1 : Timely (popped tg b hh .removed (tg.deletedCount - 1)) := by
        refine cleaned_timely p4 hc k ?_
        rcases hmm with e | ⟨e, _⟩ <;> rw [e]
        · exact k.me
        · exact Int.le_refl 0
      have hm1 : (popped tg b hh .removed (tg.deletedCount - 1)).modifiedEarliest = 0 ∨
          now < (popped tg b hh .removed (tg.deletedCount - 1)).modifiedEarliest := by
        rcases hmm with e | ⟨e, _⟩ <;> rw [e]
        · exact hm
        · exact Or.inl rfl
      have hl := perm_len p1
      split at h
      · rename_i h0
        cases h
        refine ⟨p4, k1, hm1, fun _ => ?_⟩
        intro t w hd
        obtain ⟨⟨c, hcm, _⟩, _⟩ := due_in_heap p4 hd
        have hcm' : c ∈ hh := hcm
        rw [List.eq_nil_of_length_eq_zero h0] at hcm'
        cases hcm'
      · rename_i h0
        exact ih p4 k1 hm1 (by show hh.length ≤ n; omega) h0 h
    | modifiedEarlier => rw [hs] at h; cases h
    | modifiedLater => rw [hs] at h; cases h
    | modifying => rw [hs] at h; cases h
    | unset => rw [hs] at h; cases h
    | removed => rw [hs] at h; cases h
    | running => rw [hs] at h; cases h
    | removing => rw [hs] at h; cases h
    | moving => rw [hs] at h; cases h

theorem quiet_empty {tg : Tg} (g : Good none tg) (h : tg.heap = []) (now : Int) : Quiet tg now := by
  intro t w hd
  obtain ⟨⟨c, hcm, _⟩, _⟩ := due_in_heap g hd
  rw [h] at hcm; cases hcm

theorem runAll_timely (fuel : Nat) {tg tg' : Tg} {now nw : Int} {ran : Bool} (g : Good none tg)
    (k : Timely tg) (hm : tg.modifiedEarliest = 0 ∨ now < tg.modifiedEarliest)
    (h : runAll fuel tg now = .ok (tg', nw, ran)) :
    Good none tg' ∧ Timely tg' ∧ Quiet tg' now := by
  induction fuel generalizing tg tg' nw ran with
  | zero =>
    rw [runAll] at h
    split at h
    · rename_i hl
      cases hr : runTimer tg.heap.length tg now with
      | ok r =>
        obtain ⟨tg1, tw⟩ := r
        obtain ⟨q1, q2, q3, q4⟩ := runTimer_timely _ g k hm (Nat.le_refl _) (by omega) hr
        rw [hr] at h
        simp only at h
        split at h
        · rename_i ht; cases h; exact ⟨q1, q2, q4 ht⟩
        · cases h
      | _ => rw [hr] at h; cases h
    · rename_i hl
      cases h
      exact ⟨g, k, quiet_empty g (List.eq_nil_of_length_eq_zero (by omega)) _⟩
  | succ fuel ih =>
    rw [runAll] at h
    split at h
    · rename_i hl
      cases hr : runTimer tg.heap.length tg now with
      | ok r =>
        obtain ⟨tg1, tw⟩ := r
        obtain ⟨q1, q2, q3, q4⟩ := runTimer_timely _ g k hm (Nat.le_refl _) (by omega) hr
        rw [hr] at h
        simp only at h
        split at h
        · rename_i ht; cases h; exact ⟨q1, q2, q4 ht⟩
        · cases hr2 : runAll fuel tg1 now with
          | ok r2 =>
            obtain ⟨tg2, nw2, ran2⟩ := r2
            rw [hr2] at h
            simp only [Out.bind, Out.ok.injEq, Prod.mk.injEq] at h
            rw [← h.1]
            exact ih q1 q2 q3 hr2
          | _ => rw [hr2] at h; cases h
      | _ => rw [hr] at h; cases h
    · rename_i hl
      cases h
      exact ⟨g, k, quiet_empty g (List.eq_nil_of_length_eq_zero (by omega)) _⟩

theorem clear_timely {tg tg' : Tg} (g : Good none tg) (k : Timely tg)
    (h : clearDeleted tg = .ok tg') : Timely tg' := by
  obtain ⟨tg2, r1, r2, r3, r4, r5, r6⟩ := clearDeleted_spec g
  rw [r1] at h; cases h
  have hw : ∀ u, (tg'.tm u).when = (tg.tm u).when ∧ (tg'.tm u).period = (tg.tm u).period := by
    intro u
    rw [r4]
    split
    · cases (tg.tm u) with
      | mk w p st tm => cases st <;> exact ⟨rfl, rfl⟩
    · exact ⟨rfl, rfl⟩
  refine ⟨fun u => by rw [(hw u).2]; exact k.per u, by rw [r6]; exact Int.le_refl 0, fun c hc => ?_⟩
  obtain ⟨b, hb, e⟩ := List.mem_filterMap.mp (r3.mem_iff.mp hc)
  obtain ⟨b1, b2, b3⟩ := k.ent b hb
  unfold sweepOf at e
  split at e
  · cases e
  · have e := Option.some.inj e
    subst e
    refine ⟨b2, ?_, Or.inl ?_⟩ <;> simp only <;> rw [(hw _).1]
    · exact b2
    · exact Int.le_refl _
  · have e := Option.some.inj e
    subst e
    refine ⟨b2, ?_, Or.inl ?_⟩ <;> simp only <;> rw [(hw _).1]
    · exact b2
    · exact Int.le_refl _
  · rename_i n1 n2 n3
    have e := Option.some.inj e
    subst e
    have hwait : (tg.tm b.timer).status = .waiting := by
      rcases (good_live g).2 b hb with e | e | e | e
      · exact e
      · exact absurd e n1
      · exact absurd e n2
      · exact absurd e n3
    refine ⟨b1, by rw [(hw _).1]; exact b2, Or.inl ?_⟩
    rw [(hw _).1]
    rcases g.same b hb hwait with e | e
    · rw [e]; exact Int.le_refl _
    · rw [k.per] at e; omega

theorem check_timely {fuel : Nat} {tg tg' : Tg} {now nw : Int} {ran : Bool} (g : Good none tg)
    (k : Timely tg) (h : checkTimers fuel tg now = .ok (tg', nw, ran)) :
    Timely tg' ∧ Quiet tg' now := by
  have ht0 := g.t0
  have hempty : tg.timer0When = 0 → tg.heap = [] := by
    intro e
    rw [e, headWhen] at ht0
    cases hb : tg.heap[0]? with
    | none => exact List.eq_nil_of_length_eq_zero (by simpa using hb)
    | some b =>
      rw [hb] at ht0
      simp only at ht0
      have := (k.ent b (head_mem hb)).1
      omega
  unfold checkTimers at h
  split at h
  · rename_i hwk
    cases h
    refine ⟨k, quiet_empty g (hempty ?_) _⟩
    unfold wakeTime at hwk
    split at hwk
    · rename_i hc
      rcases hc with hc | hc
      · exact hc
      · exact absurd hwk hc.1
    · exact hwk
  · split at h
    · rename_i hwk hcl
      cases h
      refine ⟨k, ?_⟩
      by_cases he : tg.heap = []
      · exact quiet_empty g he _
      · obtain ⟨b, hb⟩ := heap_head (tg := tg) (fun e => he (List.eq_nil_of_length_eq_zero e))
        rw [headWhen, hb] at ht0
        simp only at ht0
        have hbp := (k.ent b (head_mem hb)).1
        have h2 := hcl.1
        unfold wakeTime at h2
        refine quiet_of_bound g k (head_bound g hb ?_) ?_
        · split at h2 <;> omega
        · split at h2
          · exact Or.inr h2
          · have := k.me
            omega
    · have key : ∀ tg2 nw2 ran2, (if tg.heap.length > 0 then
          (adjustTimers tg now).bind fun tg1 => runAll fuel tg1 now
          else Out.ok (tg, (0 : Int), false)) = .ok (tg2, nw2, ran2) →
          Good none tg2 ∧ Timely tg2 ∧ Quiet tg2 now := by
        intro tg2 nw2 ran2 hh
        split at hh
        · rcases adjust_spec g now with ⟨a1, a2⟩ | ⟨a1, _, _, a2⟩ | ⟨a1, _⟩
          · rw [a1] at hh
            exact runAll_timely fuel g k a2 hh
          · rw [a1] at hh
            refine runAll_timely (tg := { tg with modifiedEarliest := 0 }) fuel (good_me g 0)
              ⟨k.per, Int.le_refl 0, fun b hb => ?_⟩ (Or.inl rfl) hh
            obtain ⟨b1, b2, _⟩ := k.ent b hb
            refine ⟨b1, b2, Or.inl ?_⟩
            show b.when ≤ (tg.tm b.timer).when
            rcases g.same b hb (a2 b hb) with e | e
            · rw [e]; exact Int.le_refl _
            · rw [k.per] at e; omega
          · rw [a1] at hh; cases hh
        · rename_i hl
          cases hh
          exact ⟨g, k, quiet_empty g (List.eq_nil_of_length_eq_zero (by omega)) _⟩
      cases hx : (if tg.heap.length > 0 then
          (adjustTimers tg now).bind fun tg1 => runAll fuel tg1 now
          else Out.ok (tg, (0 : Int), false)) with
      | ok r =>
        obtain ⟨tg2, nw2, ran2⟩ := r
        obtain ⟨k1, k2, k3⟩ := key _ _ _ hx
        rw [hx] at h
        simp only [Out.bind] at h
        split at h
        · cases hc : clearDeleted tg2 with
          | ok tg3 =>
            rw [hc] at h
            cases h
            refine ⟨clear_timely k1 k2 hc, ?_⟩
            unfold Quiet
            rw [(clear_armed k1 hc).2.2]
            exact k3
          | _ => rw [hc] at h; cases h
        · cases h
          exact ⟨k2, k3⟩
      | _ => rw [hx] at h; cases h

end Memar.Timer.Queue
