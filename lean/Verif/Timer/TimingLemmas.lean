import Verif.Timer.Timing

/-!
# Lemmas about the timing queue: the invariant of calls that return
-/

namespace Memar.Timer.Queue

open Memar.Timer

/-- The timers in the heap. -/
def Tg.ids (tg : Tg) : List Nat := tg.heap.map (·.timer)

def isDel (tg : Tg) (b : Bucket Nat) : Bool := decide ((tg.tm b.timer).status = .deleted)

def headWhen (l : List (Bucket Nat)) : Int :=
  match l[0]? with
  | none => 0
  | some b => b.when

def AtRest (s : Status) : Prop :=
  s = .unset ∨ s = .waiting ∨ s = .deleted ∨ s = .removed ∨ s = .modifiedEarlier ∨ s = .modifiedLater

/-- The queue is consistent, except possibly for the timer `x`, which is being inserted and is
not in the heap. -/
structure Good (x : Option Nat) (tg : Tg) : Prop where
  order : HeapOrder tg.heap
  nodup : tg.ids.Nodup
  out : ∀ t, x = some t → t ∉ tg.ids
  inn : ∀ t, x ≠ some t → (t ∈ tg.ids ↔ (tg.tm t).status ≠ .unset ∧ (tg.tm t).status ≠ .removed)
  rest : ∀ t, x ≠ some t → AtRest (tg.tm t).status
  timing : ∀ t, x ≠ some t → ((tg.tm t).timing = true ↔ t ∈ tg.ids)
  cnt : tg.timersCount = tg.heap.length
  dcnt : tg.deletedCount = tg.heap.countP (isDel tg)
  t0 : tg.timer0When = headWhen tg.heap
  same : ∀ b ∈ tg.heap, (tg.tm b.timer).status = .waiting →
    b.when = (tg.tm b.timer).when ∨ (tg.tm b.timer).period > 0

theorem mem_ids {tg : Tg} {t : Nat} : t ∈ tg.ids ↔ ∃ b ∈ tg.heap, b.timer = t := by
  simp [Tg.ids]

theorem good_init : Good none Tg.init := by
  constructor <;> simp [Tg.init, Tg.ids, headWhen, AtRest, HeapOrder]

/-- Removing the first entry. -/
theorem deleteTimer0_ok (tg : Tg) (b : Bucket Nat) (hb : tg.heap[0]? = some b) :
    ∃ h, (b :: h).Perm tg.heap ∧ (HeapOrder tg.heap → HeapOrder h) ∧
      deleteTimer0 tg = .ok { tg.setTiming b.timer false with
        heap := h
        timer0When := headWhen h
        timersCount := tg.timersCount - 1
        modifiedEarliest := if tg.timersCount - 1 = 0 then 0 else tg.modifiedEarliest } := by
  obtain ⟨h0, hb0⟩ := List.getElem?_eq_some_iff.mp hb
  obtain ⟨h, r1, r2, r3⟩ := deleteTimer0_spec tg.heap h0
  rw [hb0] at r2
  refine ⟨h, r2, r3, ?_⟩
  unfold deleteTimer0
  rw [hb]; simp only
  rw [r1]
  rfl

theorem perm_head {b : Bucket Nat} {h l : List (Bucket Nat)} (hp : (b :: h).Perm l)
    (hn : (l.map (·.timer)).Nodup) :
    (h.map (·.timer)).Nodup ∧ b.timer ∉ h.map (·.timer) := by
  have h1 : ((b :: h).map (·.timer)).Nodup := (hp.map _).nodup_iff.mpr hn
  rw [List.map_cons, List.nodup_cons] at h1
  exact ⟨h1.2, h1.1⟩

/-- What removing the first entry and giving its timer the new status `s` makes of the queue. -/
def popped (tg : Tg) (b : Bucket Nat) (h : List (Bucket Nat)) (s : Status) (dc : Int) : Tg :=
  { ((tg.setTiming b.timer false).setStatus b.timer s) with
    heap := h
    timer0When := headWhen h
    timersCount := tg.timersCount - 1
    modifiedEarliest := if tg.timersCount - 1 = 0 then 0 else tg.modifiedEarliest
    deletedCount := dc }

theorem popped_tm (tg : Tg) (b : Bucket Nat) (h : List (Bucket Nat)) (s : Status) (dc : Int) (u : Nat) :
    (popped tg b h s dc).tm u =
      if u = b.timer then { tg.tm u with timing := false, status := s } else tg.tm u := by
  by_cases e : u = b.timer
  · subst e; simp [popped, Tg.setTiming, Tg.setStatus]
  · simp [popped, Tg.setTiming, Tg.setStatus, e]

theorem good_popped {x : Option Nat} {tg : Tg} (g : Good x tg) {b : Bucket Nat}
    (hb : tg.heap[0]? = some b) {h : List (Bucket Nat)} (hp : (b :: h).Perm tg.heap)
    (ho : HeapOrder h) {s : Status} (hs : s = .unset ∨ s = .removed) {dc : Int}
    (hdc : dc = tg.deletedCount - (if (tg.tm b.timer).status = .deleted then 1 else 0)) :
    Good x (popped tg b h s dc) := by
  obtain ⟨hn, hnb⟩ := perm_head hp g.nodup
  have hbm : b.timer ∈ tg.ids := by
    rw [mem_ids]; exact ⟨b, hp.mem_iff.mp (by simp), rfl⟩
  have hids : (popped tg b h s dc).ids = h.map (·.timer) := rfl
  have hmem : ∀ t, t ∈ h.map (·.timer) ↔ t ∈ tg.ids ∧ t ≠ b.timer := by
    intro t
    have := (hp.map (·.timer)).mem_iff (a := t)
    rw [List.map_cons, List.mem_cons] at this
    constructor
    · intro ht
      refine ⟨this.mp (Or.inr ht), fun e => ?_⟩
      rw [e] at ht; exact hnb ht
    · intro ⟨h1, h2⟩
      rcases this.mpr h1 with e | e
      · exact absurd e h2
      · exact e
  have htm := popped_tm tg b h s dc
  have hxb : x ≠ some b.timer := fun e => g.out _ e hbm
  refine ⟨ho, hn, ?_, ?_, ?_, ?_, ?_, ?_, rfl, ?_⟩
  · intro t e ht
    exact g.out t e ((hmem t).mp ht).1
  · intro t hx
    rw [hids, hmem t, htm]
    by_cases e : t = b.timer
    · rw [if_pos e]
      constructor
      · intro ⟨_, h2⟩; exact absurd e h2
      · intro ⟨h1, h2⟩; rcases hs with e | e <;> subst e <;> simp at h1 h2
    · rw [if_neg e, ← g.inn t hx]; simp [e]
  · intro t hx
    rw [htm]
    by_cases e : t = b.timer
    · rw [if_pos e]; rcases hs with e | e <;> subst e <;> simp [AtRest]
    · rw [if_neg e]; exact g.rest t hx
  · intro t hx
    rw [hids, hmem t, htm]
    by_cases e : t = b.timer
    · rw [if_pos e]; simp [e]
    · rw [if_neg e, g.timing t hx]; simp [e]
  · show tg.timersCount - 1 = (h.length : Int)
    rw [g.cnt, ← hp.length_eq, List.length_cons]; omega
  · show dc = (h.countP (isDel (popped tg b h s dc)) : Int)
    have h1 : h.countP (isDel (popped tg b h s dc)) = h.countP (isDel tg) := by
      apply List.countP_congr
      intro c hc
      have hne : c.timer ≠ b.timer := by
        intro e; apply hnb; rw [← e]; exact List.mem_map_of_mem hc
      simp only [isDel, htm, if_neg hne]
    have h2 := hp.countP_eq (isDel tg)
    rw [h1, hdc, g.dcnt, ← h2, List.countP_cons]
    simp only [isDel, decide_eq_true_eq]
    split <;> omega
  · intro c hc
    have hne : c.timer ≠ b.timer := by
      intro e; apply hnb; rw [← e]; exact List.mem_map_of_mem hc
    rw [htm, if_neg hne]
    exact g.same c (hp.mem_iff.mp (List.mem_cons_of_mem _ hc))

/-- The branch shared by `cleanTimers` and `runTimer`: a deleted timer at the head is removed. -/
theorem pop_deleted {x : Option Nat} {tg : Tg} (g : Good x tg) {b : Bucket Nat}
    (hb : tg.heap[0]? = some b) (hd : (tg.tm b.timer).status = .deleted) :
    ∃ h tg1, (b :: h).Perm tg.heap ∧
      deleteTimer0 (tg.setStatus b.timer .removing) = .ok tg1 ∧
      { tg1.setStatus b.timer .removed with
        deletedCount := (tg1.setStatus b.timer .removed).deletedCount - 1 } =
        popped tg b h .removed (tg.deletedCount - 1) ∧
      Good x (popped tg b h .removed (tg.deletedCount - 1)) := by
  obtain ⟨h, r1, r2, r3⟩ := deleteTimer0_ok (tg.setStatus b.timer .removing) b hb
  refine ⟨h, _, r1, r3, ?_, good_popped g hb r1 (r2 g.order) (Or.inr rfl) (by rw [if_pos hd])⟩
  simp only [popped, Tg.setStatus, Tg.setTiming, Tg.mk.injEq, and_true, true_and]
  funext u
  by_cases e : u = b.timer <;> simp [e]

theorem heap_head {tg : Tg} (h : tg.heap.length ≠ 0) : ∃ b, tg.heap[0]? = some b :=
  ⟨_, List.getElem?_eq_getElem (by omega)⟩

theorem perm_len {b : Bucket Nat} {h l : List (Bucket Nat)} (hp : (b :: h).Perm l) :
    l.length = h.length + 1 := by rw [← hp.length_eq]; rfl

/-- A timer nobody touched, apart from deleted ones becoming removed. -/
def Cleaned (tg tg' : Tg) : Prop :=
  (∀ u, tg'.tm u = tg.tm u ∨
    (u ∈ tg.ids ∧ (tg.tm u).status = .deleted ∧ tg'.tm u = { tg.tm u with timing := false, status := .removed })) ∧
  tg'.fired = tg.fired ∧ (∀ b ∈ tg'.heap, b ∈ tg.heap) ∧
  (tg'.modifiedEarliest = tg.modifiedEarliest ∨ tg'.heap = [])

theorem Cleaned.refl (tg : Tg) : Cleaned tg tg := 
  ⟨fun _ => Or.inl rfl, rfl, fun _ h => h, Or.inl rfl⟩

theorem Cleaned.trans {a b c : Tg} (h1 : Cleaned a b) (h2 : Cleaned b c) : Cleaned a c := by
  refine ⟨fun u => ?_, h2.2.1.trans h1.2.1, fun x hx => h1.2.2.1 x (h2.2.2.1 x hx), ?_⟩
  rotate_left
  · rcases h2.2.2.2 with e | e
    · rcases h1.2.2.2 with f | f
      · left; rw [e, f]
      · right; apply List.eq_nil_iff_forall_not_mem.mpr
        intro x hx; have := h2.2.2.1 x hx; rw [f] at this; cases this
    · exact Or.inr e
  rcases h1.1 u with e | ⟨e0, e1, e2⟩
  · rcases h2.1 u with f | ⟨f0, f1, f2⟩
    · left; rw [f, e]
    · right; rw [e] at f1 f2
      obtain ⟨x, hx, rfl⟩ := mem_ids.mp f0
      exact ⟨mem_ids.mpr ⟨x, h1.2.2.1 x hx, rfl⟩, f1, f2⟩
  · rcases h2.1 u with f | ⟨f0, f1, f2⟩
    · right; rw [f]; exact ⟨e0, e1, e2⟩
    · rw [e2] at f1; simp at f1

theorem cleaned_popped {tg : Tg} {b : Bucket Nat} {h : List (Bucket Nat)} {dc : Int}
    (hp : (b :: h).Perm tg.heap) (hd : (tg.tm b.timer).status = .deleted)
    (hcnt : tg.timersCount = tg.heap.length) :
    Cleaned tg (popped tg b h .removed dc) := by
  refine ⟨fun u => ?_, rfl, fun c hc => hp.mem_iff.mp (List.mem_cons_of_mem _ hc), ?_⟩
  rotate_left
  · show (if tg.timersCount - 1 = 0 then 0 else tg.modifiedEarliest) = _ ∨ h = []
    have hl := hp.length_eq
    rw [List.length_cons] at hl
    by_cases e : h = []
    · exact Or.inr e
    · left; rw [if_neg]
      have := List.length_pos_iff.mpr e
      omega
  rw [popped_tm]
  by_cases e : u = b.timer
  · right; rw [if_pos e]
    refine ⟨?_, by rw [e]; exact hd, rfl⟩
    rw [e]; exact mem_ids.mpr ⟨b, hp.mem_iff.mp (by simp), rfl⟩
  · left; rw [if_neg e]

/-- `cleanTimers` on a consistent queue: if it returns, the queue is consistent, its head is
neither deleted nor modified, and only deleted timers were touched.  Otherwise it panics (every
entry was deleted) or deadlocks (it met a modified timer). -/
theorem cleanLoop_spec {x : Option Nat} (n : Nat) (tg : Tg) (g : Good x tg)
    (hn : tg.heap.length ≤ n) (hne : tg.heap.length ≠ 0) :
    (∃ tg' b, cleanLoop n tg = .ok tg' ∧ Good x tg' ∧ Cleaned tg tg' ∧ tg'.heap[0]? = some b ∧
        (tg'.tm b.timer).status ≠ .deleted) ∨
    (cleanLoop n tg = .panic ∧ ∀ b ∈ tg.heap, (tg.tm b.timer).status = .deleted) ∨
    (cleanLoop n tg = .deadlock ∧ ∃ b ∈ tg.heap, (tg.tm b.timer).status = .modifiedEarlier ∨
        (tg.tm b.timer).status = .modifiedLater) := by
  induction n generalizing tg with
  | zero => omega
  | succ n ih =>
    obtain ⟨b, hb⟩ := heap_head hne
    have hbm : b ∈ tg.heap := by
      obtain ⟨h0, e⟩ := List.getElem?_eq_some_iff.mp hb
      rw [← e]; exact List.getElem_mem h0
    rw [cleanLoop, hb]
    simp only
    cases hs : (tg.tm b.timer).status with
    | deleted =>
      simp only
      obtain ⟨h, tg1, p1, p2, p3, p4⟩ := pop_deleted g hb hs
      rw [p2]; simp only
      rw [p3]
      have hl := perm_len p1
      by_cases h0 : h.length = 0
      · right; left
        have e : h = [] := List.eq_nil_of_length_eq_zero h0
        subst e
        refine ⟨?_, ?_⟩
        · rw [cleanLoop.eq_def]; rfl
        · intro c hc
          have := p1.mem_iff.mpr hc
          simp only [List.mem_singleton] at this
          rw [this]; exact hs
      · have hc := cleaned_popped (dc := tg.deletedCount - 1) p1 hs g.cnt
        have nb : ∀ c ∈ h, (popped tg b h .removed (tg.deletedCount - 1)).tm c.timer = tg.tm c.timer := by
          intro c hc
          rw [popped_tm, if_neg]
          intro e
          exact (perm_head p1 g.nodup).2 (e ▸ List.mem_map_of_mem hc)
        rcases ih _ p4 (by show h.length ≤ n; omega) h0 with
          ⟨tg', b', r1, r2, r3, r4, r5⟩ | ⟨r1, r2⟩ | ⟨r1, c, hcm, r2⟩
        · left; exact ⟨tg', b', r1, r2, hc.trans r3, r4, r5⟩
        · right; left
          refine ⟨r1, fun c hcm => ?_⟩
          rcases List.mem_cons.mp (p1.mem_iff.mpr hcm) with e | e
          · rw [e]; exact hs
          · have := r2 c e
            rw [nb c e] at this; exact this
        · right; right
          refine ⟨r1, c, p1.mem_iff.mp (List.mem_cons_of_mem _ hcm), ?_⟩
          rw [nb c hcm] at r2; exact r2
    | modifiedEarlier => right; right; exact ⟨rfl, b, hbm, Or.inl hs⟩
    | modifiedLater => right; right; exact ⟨rfl, b, hbm, Or.inr hs⟩
    | _ => left; exact ⟨tg, b, rfl, g, Cleaned.refl _, hb, by rw [hs]; simp⟩

theorem siftUp_at {τ : Type} [DecidableEq τ] {l l' : List (Bucket τ)} {i j : Nat}
    (h : siftUp l i = some (l', j)) : l'[j]? = l[i]? := by
  unfold siftUp at h
  split at h
  · cases h
  · rename_i tmp ht
    split at h
    · cases h
    · rename_i l1 j1 h1
      split at h
      · cases h
      · rename_i l2 h2
        cases h
        unfold place at h2
        split at h2
        · cases h2
        · rename_i b hb
          have hj := (List.getElem?_eq_some_iff.mp hb).1
          split at h2
          · rw [setAt, if_pos hj] at h2
            cases h2
            rw [ht, List.getElem?_set_self hj]
          · rename_i hne
            cases h2
            rw [ht, hb, Decidable.not_not.mp hne]

/-- Inserting an entry leaves the first entry in place or makes the new entry the first. -/
theorem insert_head {l l' : List (Bucket Nat)} {b : Bucket Nat} (h : Timer.insert l b = some l') :
    l'[0]? = some b ∨ (l'[0]? = l[0]? ∧ l ≠ []) := by
  unfold Timer.insert at h
  have hlen : (append l b).length = l.length + 1 := by simp [append]
  obtain ⟨t1, j, s1, s2, s3, s4, s5, s6, s7, s8⟩ := siftUp_spec (append l b) l.length (by omega)
  rw [s1] at h
  simp only [Option.map_some, Option.some.injEq] at h
  subst h
  have hat := siftUp_at s1
  by_cases h0 : j = 0
  · left
    rw [h0] at hat
    rw [hat, append, List.getElem?_append_right (Nat.le_refl _)]; simp
  · right
    have := s5 0 (by omega)
    have hne : l ≠ [] := by
      intro e; subst e; simp at s3; omega
    refine ⟨?_, hne⟩
    rw [this, append, List.getElem?_append_left]
    cases l with
    | nil => exact absurd rfl hne
    | cons a t => simp

/-- The part of `AddTimer` after `cleanTimers`. -/
def addTail (tg1 : Tg) (t : Nat) : Out Tg :=
  let w := (tg1.tm t).when
  let tg2 := tg1.setTiming t true
  match Timer.insert tg2.heap ⟨t, w⟩ with
  | none => .panic
  | some h =>
    let tg3 := { tg2 with heap := h }
    match h[0]? with
    | none => .panic
    | some b =>
      let tg4 := if b.timer = t then { tg3 with timer0When := w } else tg3
      .ok { tg4 with timersCount := tg4.timersCount + 1 }

theorem addTail_spec {tg : Tg} {t : Nat} (g : Good (some t) tg) :
    ∃ h, (⟨t, (tg.tm t).when⟩ :: tg.heap).Perm h ∧ HeapOrder h ∧
      addTail tg t = .ok { tg.setTiming t true with
        heap := h, timer0When := headWhen h, timersCount := tg.timersCount + 1 } := by
  have hout := g.out t rfl
  obtain ⟨h, h1, h2, h3⟩ := insert_spec tg.heap ⟨t, (tg.tm t).when⟩
  refine ⟨h, h2.symm, h3 g.order, ?_⟩
  unfold addTail
  simp only
  rw [show (tg.setTiming t true).heap = tg.heap from rfl, h1]
  simp only
  have hl := h2.length_eq
  simp only [List.length_cons] at hl
  obtain ⟨b, hb⟩ : ∃ b, h[0]? = some b := ⟨_, List.getElem?_eq_getElem (by omega)⟩
  rw [hb]
  simp only
  have hw : headWhen h = b.when := by simp [headWhen, hb]
  rcases insert_head h1 with e | ⟨e, hne⟩
  · rw [hb] at e
    cases e
    rw [if_pos rfl, hw]
    rfl
  · rw [hb] at e
    have hbm : b ∈ tg.heap := by
      obtain ⟨h0, e'⟩ := List.getElem?_eq_some_iff.mp e.symm
      rw [← e']; exact List.getElem_mem h0
    have hbt : b.timer ≠ t := by
      intro e'; apply hout; rw [← e', mem_ids]; exact ⟨b, hbm, rfl⟩
    rw [if_neg hbt, hw]
    have : tg.timer0When = b.when := by rw [g.t0]; simp [headWhen, ← e]
    simp [Tg.setTiming, this]

/-- The queue after a successful insertion of `t`, which then gets the status `s`. -/
theorem good_added {tg : Tg} {t : Nat} (g : Good (some t) tg) {h : List (Bucket Nat)}
    (hp : (⟨t, (tg.tm t).when⟩ :: tg.heap).Perm h) (ho : HeapOrder h) {tg' : Tg}
    (hheap : tg'.heap = h) (ht0 : tg'.timer0When = headWhen h)
    (hc : tg'.timersCount = tg.timersCount + 1) (hd : tg'.deletedCount = tg.deletedCount)
    (hother : ∀ u, u ≠ t → tg'.tm u = tg.tm u) (hw : (tg'.tm t).when = (tg.tm t).when)
    (hst : (tg'.tm t).status = .waiting) (htm : (tg'.tm t).timing = true) :
    Good none tg' := by
  have hout := g.out t rfl
  have hids : tg'.ids = h.map (·.timer) := by rw [Tg.ids, hheap]
  have hmem : ∀ u, u ∈ tg'.ids ↔ u = t ∨ u ∈ tg.ids := by
    intro u
    rw [hids, ← (hp.map (·.timer)).mem_iff]
    simp [Tg.ids]
  refine ⟨by rw [hheap]; exact ho, ?_, fun u e => (by cases e), ?_, ?_, ?_, ?_, ?_, ?_, ?_⟩
  · rw [hids, ← (hp.map (·.timer)).nodup_iff]
    exact List.nodup_cons.mpr ⟨hout, g.nodup⟩
  · intro u _
    rw [hmem]
    by_cases e : u = t
    · subst e; simp [hst]
    · rw [hother u e, ← g.inn u (fun c => e (Option.some.inj c).symm)]; simp [e]
  · intro u _
    by_cases e : u = t
    · subst e; rw [hst]; simp [AtRest]
    · rw [hother u e]; exact g.rest u (fun c => e (Option.some.inj c).symm)
  · intro u _
    rw [hmem]
    by_cases e : u = t
    · subst e; simp [htm]
    · rw [hother u e, g.timing u (fun c => e (Option.some.inj c).symm)]; simp [e]
  · rw [hc, g.cnt, hheap, ← hp.length_eq]; simp
  · rw [hd, g.dcnt, hheap, ← hp.countP_eq, List.countP_cons]
    have e1 : isDel tg' ⟨t, (tg.tm t).when⟩ = false := by simp [isDel, hst]
    rw [e1]
    simp only [Bool.false_eq_true, if_false, Nat.add_zero, Int.natCast_inj]
    apply List.countP_congr
    intro c hc'
    have : c.timer ≠ t := by
      intro e; apply hout; rw [← e, mem_ids]; exact ⟨c, hc', rfl⟩
    simp only [isDel, hother _ this]
  · rw [ht0, hheap]
  · intro c hc' hs
    rw [hheap, ← hp.mem_iff] at hc'
    rcases List.mem_cons.mp hc' with e | e
    · subst e; left; exact hw.symm
    · have : c.timer ≠ t := by
        intro e'; apply hout; rw [← e', mem_ids]; exact ⟨c, e, rfl⟩
      rw [hother _ this] at hs ⊢
      exact g.same c e hs

/-- `AddTimer` on a consistent queue. -/
theorem addTimer_spec {tg : Tg} {t : Nat} (g : Good (some t) tg) :
    (∃ tg1 tg', addTimer tg t = .ok tg' ∧ Good (some t) tg1 ∧ Cleaned tg tg1 ∧
        tg1.tm t = tg.tm t ∧
        (∃ h, (⟨t, (tg1.tm t).when⟩ :: tg1.heap).Perm h ∧ HeapOrder h ∧
          tg' = { tg1.setTiming t true with
            heap := h, timer0When := headWhen h, timersCount := tg1.timersCount + 1 }) ∧
        (∀ b, tg1.heap[0]? = some b → (tg1.tm b.timer).status ≠ .deleted)) ∨
    (addTimer tg t = .panic ∧ tg.heap ≠ [] ∧ ∀ b ∈ tg.heap, (tg.tm b.timer).status = .deleted) ∨
    (addTimer tg t = .deadlock ∧ ∃ b ∈ tg.heap, (tg.tm b.timer).status = .modifiedEarlier ∨
        (tg.tm b.timer).status = .modifiedLater) := by
  have hadd : addTimer tg t = (cleanTimers tg).bind fun tg1 => addTail tg1 t := rfl
  have hout := g.out t rfl
  by_cases h0 : tg.heap.length = 0
  · left
    obtain ⟨h, a1, a2, a3⟩ := addTail_spec g
    refine ⟨tg, _, ?_, g, Cleaned.refl _, rfl, ⟨h, a1, a2, rfl⟩, ?_⟩
    · rw [hadd, cleanTimers, if_pos h0]; exact a3
    · intro b hb
      have := (List.getElem?_eq_some_iff.mp hb).1; omega
  · rcases cleanLoop_spec tg.heap.length tg g (Nat.le_refl _) h0 with
      ⟨tg1, b, r1, r2, r3, r4, r5⟩ | ⟨r1, r2⟩ | ⟨r1, r2⟩
    · left
      obtain ⟨h, a1, a2, a3⟩ := addTail_spec r2
      have htm : tg1.tm t = tg.tm t := by
        rcases r3.1 t with e | ⟨e1, _⟩
        · exact e
        · exact absurd e1 hout
      refine ⟨tg1, _, ?_, r2, r3, htm, ⟨h, a1, a2, rfl⟩, ?_⟩
      · rw [hadd, cleanTimers, if_neg h0, r1]; exact a3
      · intro c hc
        rw [r4] at hc; cases hc; exact r5
    · right; left
      refine ⟨?_, ?_, r2⟩
      · rw [hadd, cleanTimers, if_neg h0, r1]; rfl
      · intro e; rw [e] at h0; exact h0 rfl
    · right; right
      refine ⟨?_, r2⟩
      rw [hadd, cleanTimers, if_neg h0, r1]; rfl

end Memar.Timer.Queue
