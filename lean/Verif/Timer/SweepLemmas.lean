import Verif.Timer.TimingLemmas2

/-!
# Lemmas about `clearDeletedTimers`
-/

namespace Memar.Timer.Queue

open Memar.Timer

/-! ## Sifting up only touches the entries up to the index -/

theorem siftUpLoop_append {τ : Type} (w : Int) (p q : List (Bucket τ)) (i : Nat) (hi : i < p.length) :
    siftUpLoop w (p ++ q) i = (siftUpLoop w p i).map (fun r => (r.1 ++ q, r.2)) := by
  induction i using Nat.strongRecOn generalizing p with
  | _ i ih =>
  rw [siftUpLoop.eq_def, siftUpLoop.eq_def w p i]
  by_cases h0 : i > 0
  · rw [dif_pos h0, dif_pos h0]
    have hpl : (i - 1) / heapAry < i := by simp only [heapAry]; omega
    have hp : (i - 1) / heapAry < p.length := by omega
    rw [List.getElem?_append_left hp, List.getElem?_eq_getElem hp]
    simp only
    by_cases hc : w ≥ (p[(i - 1) / heapAry]).when
    · rw [if_pos hc, if_pos hc]; rfl
    · rw [if_neg hc, if_neg hc, setAt, setAt, if_pos hi,
        if_pos (by rw [List.length_append]; omega)]
      simp only
      rw [List.set_append_left _ _ hi]
      exact ih _ hpl _ (by rw [List.length_set]; exact hp)
  · rw [dif_neg h0, dif_neg h0]; rfl

theorem siftUpLoop_len {τ : Type} {w : Int} {p p' : List (Bucket τ)} {i j : Nat} (hi : i < p.length)
    (h : siftUpLoop w p i = some (p', j)) : p'.length = p.length ∧ j < p.length := by
  induction i using Nat.strongRecOn generalizing p with
  | _ i ih =>
  rw [siftUpLoop.eq_def] at h
  by_cases h0 : i > 0
  · rw [dif_pos h0] at h
    have hpl : (i - 1) / heapAry < i := by simp only [heapAry]; omega
    have hp : (i - 1) / heapAry < p.length := by omega
    rw [List.getElem?_eq_getElem hp] at h
    simp only at h
    split at h
    · cases h; exact ⟨rfl, hi⟩
    · rw [setAt, if_pos hi] at h
      simp only at h
      have := ih _ hpl (by rw [List.length_set]; exact hp) h
      rw [List.length_set] at this
      exact this
  · rw [dif_neg h0] at h; cases h; exact ⟨rfl, hi⟩

theorem siftUp_append {τ : Type} [DecidableEq τ] (p q : List (Bucket τ)) (i : Nat) (hi : i < p.length) :
    siftUp (p ++ q) i = (siftUp p i).map (fun r => (r.1 ++ q, r.2)) := by
  unfold siftUp
  rw [List.getElem?_append_left hi, List.getElem?_eq_getElem hi]
  simp only
  rw [siftUpLoop_append _ _ _ _ hi]
  cases h : siftUpLoop (p[i]).when p i with
  | none => rfl
  | some r =>
    obtain ⟨p', j⟩ := r
    obtain ⟨h1, h2⟩ := siftUpLoop_len hi h
    simp only [Option.map_some]
    rw [place_eq _ _ (by rw [List.length_append]; omega), place_eq _ _ (by omega)]
    simp only [Option.map_some]
    rw [List.set_append_left _ _ (by omega)]

theorem sweepPut_spec (P Q : List (Bucket Nat)) (a b : Bucket Nat) :
    sweepPut (P ++ a :: Q) P.length b = (Timer.insert P b).map (· ++ Q) := by
  unfold sweepPut
  rw [setAt, if_pos (by simp)]
  simp only
  have e : (P ++ a :: Q).set P.length b = append P b ++ Q := by
    rw [List.set_append_right _ _ (Nat.le_refl _)]; simp [append]
  rw [e, siftUp_append _ _ _ (by simp [append])]
  unfold Timer.insert
  cases siftUp (append P b) P.length <;> rfl

/-! ## The sweep -/

/-- What becomes of an entry. -/
def sweepOf (tg : Tg) (b : Bucket Nat) : Option (Bucket Nat) :=
  match (tg.tm b.timer).status with
  | .deleted => none
  | .modifiedEarlier | .modifiedLater => some ⟨b.timer, (tg.tm b.timer).when⟩
  | _ => some b

/-- What becomes of a timer in the heap. -/
def sweptTm (m : Tm) : Tm :=
  match m.status with
  | .deleted => { m with timing := false, status := .removed }
  | .modifiedEarlier | .modifiedLater => { m with status := .waiting }
  | _ => m

theorem sweptTm_status (m : Tm) : (sweptTm m).status =
    if m.status = .deleted then .removed
    else if m.status = .modifiedEarlier ∨ m.status = .modifiedLater then .waiting else m.status := by
  unfold sweptTm; split <;> rename_i h <;> simp_all

theorem sweptTm_timing (m : Tm) : (sweptTm m).timing =
    if m.status = .deleted then false else m.timing := by
  unfold sweptTm; split <;> rename_i h <;> simp_all

theorem sweptTm_other (m : Tm) (h1 : m.status ≠ .deleted) (h2 : m.status ≠ .modifiedEarlier)
    (h3 : m.status ≠ .modifiedLater) : sweptTm m = m := by
  unfold sweptTm; split <;> rename_i h <;> simp_all

structure SweepInv (tg0 : Tg) (done rest : List (Bucket Nat)) (s : Sweep)
    (P junk : List (Bucket Nat)) : Prop where
  heap : tg0.heap = done ++ rest
  arr : s.arr = P ++ (junk ++ rest)
  kept : s.kept = P.length
  idx : P.length + junk.length = done.length
  perm : P.Perm (done.filterMap (sweepOf tg0))
  order : HeapOrder P
  fresh : s.changed = false → junk = [] ∧ P = done
  tm : ∀ u, s.tg.tm u = if u ∈ done.map (·.timer) then sweptTm (tg0.tm u) else tg0.tm u
  cdel : s.cdel = done.countP (isDel tg0)
  same : s.tg.heap = tg0.heap ∧ s.tg.timersCount = tg0.timersCount ∧
    s.tg.deletedCount = tg0.deletedCount ∧ s.tg.fired = tg0.fired ∧ s.tg.modifiedEarliest = 0

theorem heapOrder_prefix {l m : List (Bucket Nat)} (h : HeapOrder (l ++ m)) : HeapOrder l := by
  intro k b p k0 hb hp
  have h1 := (List.getElem?_eq_some_iff.mp hb).1
  have h2 := (List.getElem?_eq_some_iff.mp hp).1
  exact h k b p k0 (by rw [List.getElem?_append_left h1]; exact hb)
    (by rw [List.getElem?_append_left h2]; exact hp)

theorem insert_perm_order {P : List (Bucket Nat)} (b : Bucket Nat) (hP : HeapOrder P) :
    ∃ P', Timer.insert P b = some P' ∧ P'.Perm (b :: P) ∧ HeapOrder P' := by
  obtain ⟨P', h1, h2, h3⟩ := insert_spec P b
  exact ⟨P', h1, h2, h3 hP⟩

theorem sweep_put_junk (P junk rest : List (Bucket Nat)) (b c : Bucket Nat) (hP : HeapOrder P) :
    ∃ P' junk', sweepPut (P ++ (junk ++ b :: rest)) P.length c = some (P' ++ (junk' ++ rest)) ∧
      P'.Perm (c :: P) ∧ HeapOrder P' ∧ junk'.length = junk.length := by
  obtain ⟨P', h1, h2, h3⟩ := insert_perm_order c hP
  cases junk with
  | nil =>
    refine ⟨P', [], ?_, h2, h3, rfl⟩
    rw [List.nil_append, sweepPut_spec, h1]; rfl
  | cons j js =>
    refine ⟨P', js ++ [b], ?_, h2, h3, by simp⟩
    rw [List.cons_append, sweepPut_spec, h1]; simp

theorem sweepStep_spec {tg0 : Tg} (g : Good none tg0) {done rest : List (Bucket Nat)}
    {b : Bucket Nat} {s : Sweep} {P junk : List (Bucket Nat)}
    (h : SweepInv tg0 done (b :: rest) s P junk) :
    ∃ s' P' junk', sweepStep s done.length = .ok s' ∧
      SweepInv tg0 (done ++ [b]) rest s' P' junk' := by
  obtain ⟨h1, h2, h3, h4, h5, h6, h7, h8, h9, h10⟩ := h
  have hbm : b ∈ tg0.heap := by rw [h1]; simp
  have hids : b.timer ∈ tg0.ids := mem_ids.mpr ⟨b, hbm, rfl⟩
  have hnd : b.timer ∉ done.map (·.timer) := by
    have hn := g.nodup
    unfold Tg.ids at hn
    rw [h1, List.map_append, List.map_cons, List.nodup_append] at hn
    intro hm
    exact hn.2.2 _ hm _ (by simp) rfl
  have hget : s.arr[done.length]? = some b := by
    rw [h2, ← List.append_assoc, List.getElem?_append_right (by rw [List.length_append]; omega),
      List.length_append, h4]
    simp
  have hst : s.tg.tm b.timer = tg0.tm b.timer := by rw [h8, if_neg hnd]
  have hset : ∀ c, setAt s.arr done.length c = some (P ++ (junk ++ c :: rest)) := by
    intro c
    rw [h2, ← List.append_assoc, setAt, if_pos (by
      simp only [List.length_append, List.length_cons]; omega)]
    rw [List.set_append_right _ _ (by rw [List.length_append]; omega), List.length_append, h4]
    simp
  have htm : ∀ (m : Tm) (u : Nat), m = sweptTm (tg0.tm b.timer) →
      (if u = b.timer then m else s.tg.tm u) =
        if u ∈ (done ++ [b]).map (·.timer) then sweptTm (tg0.tm u) else tg0.tm u := by
    intro m u hm
    by_cases e : u = b.timer
    · subst e; rw [if_pos rfl, if_pos (by simp), hm]
    · rw [if_neg e, h8]
      simp only [List.map_append, List.map_cons, List.map_nil, List.mem_append, List.mem_singleton, e,
        or_false]
  have hheap' : tg0.heap = (done ++ [b]) ++ rest := by rw [h1]; simp
  have hcd : ∀ d : Bool, d = isDel tg0 b →
      s.cdel + (if d = true then 1 else 0) = ((done ++ [b]).countP (isDel tg0) : Int) := by
    intro d hd
    rw [h9, List.countP_append, List.countP_singleton, ← hd]; split <;> simp
  unfold sweepStep
  rw [hget]
  simp only
  rw [hst]
  cases hs : (tg0.tm b.timer).status with
  | waiting =>
    simp only
    have hsw : sweepOf tg0 b = some b := by simp [sweepOf, hs]
    have htms : sweptTm (tg0.tm b.timer) = tg0.tm b.timer := by simp [sweptTm, hs]
    have hdel : isDel tg0 b = false := by simp [isDel, hs]
    have hc := hcd false hdel.symm
    simp only [Bool.false_eq_true, if_false, Int.add_zero] at hc
    have htm' : ∀ u, s.tg.tm u =
        if u ∈ (done ++ [b]).map (·.timer) then sweptTm (tg0.tm u) else tg0.tm u := by
      intro u
      rw [← htm (tg0.tm b.timer) u htms.symm]
      by_cases e : u = b.timer
      · subst e; rw [if_pos rfl, hst]
      · rw [if_neg e]
    by_cases hch : s.changed = true
    · rw [if_pos hch, h2, h3]
      obtain ⟨P', junk', a1, a2, a3, a4⟩ := sweep_put_junk P junk rest b b h6
      rw [a1]
      refine ⟨_, P', junk', rfl, ⟨hheap', rfl, ?_, ?_, ?_, a3, ?_, htm', hc, h10⟩⟩
      · show P.length + 1 = P'.length
        rw [a2.length_eq]; rfl
      · rw [a2.length_eq, a4, List.length_append, ← h4]; simp; omega
      · rw [List.filterMap_append]
        simp only [List.filterMap_cons, hsw, List.filterMap_nil]
        exact a2.trans ((h5.cons b).trans (List.perm_append_singleton _ _).symm)
      · intro hf
        exact absurd hch (by rw [show s.changed = false from hf]; simp)
    · have hch' : s.changed = false := by simpa using hch
      obtain ⟨e1, e2⟩ := h7 hch'
      rw [hch', if_neg (by simp)]
      subst e1; subst e2
      refine ⟨_, P ++ [b], [], rfl, ⟨hheap', ?_, ?_, ?_, ?_, ?_, ?_, htm', hc, h10⟩⟩
      · show s.arr = _; rw [h2]; simp
      · show s.kept + 1 = _; rw [h3]; simp
      · simp
      · rw [List.filterMap_append]
        simp only [List.filterMap_cons, hsw, List.filterMap_nil]
        exact h5.append_right _
      · apply heapOrder_prefix (m := rest)
        rw [← hheap']; exact g.order
      · intro _; exact ⟨rfl, rfl⟩
  | deleted =>
    simp only
    have hsw : sweepOf tg0 b = none := by simp [sweepOf, hs]
    have htms : sweptTm (tg0.tm b.timer) = { tg0.tm b.timer with timing := false, status := .removed } := by
      simp [sweptTm, hs]
    have hdel : isDel tg0 b = true := by simp [isDel, hs]
    have hc := hcd true hdel.symm
    simp only [if_true] at hc
    refine ⟨_, P, junk ++ [b], rfl, ⟨hheap', ?_, h3, ?_, ?_, h6, ?_, ?_, hc, h10⟩⟩
    · show s.arr = _; rw [h2]; simp
    · simp; omega
    · rw [List.filterMap_append]
      simp only [List.filterMap_cons, hsw, List.filterMap_nil, List.append_nil]
      exact h5
    · intro hf; cases hf
    · intro u
      rw [← htm _ u htms.symm]
      show (if u = b.timer then _ else _) = _
      by_cases e : u = b.timer
      · subst e; simp [Tg.setTiming, hst]
      · simp [Tg.setTiming, e]
  | modifiedEarlier =>
    simp only
    have hsw : sweepOf tg0 b = some ⟨b.timer, (tg0.tm b.timer).when⟩ := by simp [sweepOf, hs]
    have htms : sweptTm (tg0.tm b.timer) = { tg0.tm b.timer with status := .waiting } := by
      simp [sweptTm, hs]
    have hdel : isDel tg0 b = false := by simp [isDel, hs]
    have hc := hcd false hdel.symm
    simp only [Bool.false_eq_true, if_false, Int.add_zero] at hc
    rw [hset]
    simp only
    rw [h3]
    obtain ⟨P', junk', a1, a2, a3, a4⟩ := sweep_put_junk P junk rest
      ⟨b.timer, (tg0.tm b.timer).when⟩ ⟨b.timer, (tg0.tm b.timer).when⟩ h6
    rw [a1]
    refine ⟨_, P', junk', rfl, ⟨hheap', rfl, ?_, ?_, ?_, a3, ?_, ?_, hc, h10⟩⟩
    · show P.length + 1 = P'.length
      rw [a2.length_eq]; rfl
    · rw [a2.length_eq, a4, List.length_append, ← h4]; simp; omega
    · rw [List.filterMap_append]
      simp only [List.filterMap_cons, hsw, List.filterMap_nil]
      exact a2.trans ((h5.cons _).trans (List.perm_append_singleton _ _).symm)
    · intro hf; cases hf
    · intro u
      rw [← htm _ u htms.symm, ← hst]; rfl
  | modifiedLater =>
    simp only
    have hsw : sweepOf tg0 b = some ⟨b.timer, (tg0.tm b.timer).when⟩ := by simp [sweepOf, hs]
    have htms : sweptTm (tg0.tm b.timer) = { tg0.tm b.timer with status := .waiting } := by
      simp [sweptTm, hs]
    have hdel : isDel tg0 b = false := by simp [isDel, hs]
    have hc := hcd false hdel.symm
    simp only [Bool.false_eq_true, if_false, Int.add_zero] at hc
    rw [hset]
    simp only
    rw [h3]
    obtain ⟨P', junk', a1, a2, a3, a4⟩ := sweep_put_junk P junk rest
      ⟨b.timer, (tg0.tm b.timer).when⟩ ⟨b.timer, (tg0.tm b.timer).when⟩ h6
    rw [a1]
    refine ⟨_, P', junk', rfl, ⟨hheap', rfl, ?_, ?_, ?_, a3, ?_, ?_, hc, h10⟩⟩
    · show P.length + 1 = P'.length
      rw [a2.length_eq]; rfl
    · rw [a2.length_eq, a4, List.length_append, ← h4]; simp; omega
    · rw [List.filterMap_append]
      simp only [List.filterMap_cons, hsw, List.filterMap_nil]
      exact a2.trans ((h5.cons _).trans (List.perm_append_singleton _ _).symm)
    · intro hf; cases hf
    · intro u
      rw [← htm _ u htms.symm, ← hst]; rfl
  | unset => exact absurd hs ((g.inn b.timer (by simp)).mp hids).1
  | removed => exact absurd hs ((g.inn b.timer (by simp)).mp hids).2
  | running => have := g.rest b.timer (by simp); rw [hs] at this; simp [AtRest] at this
  | removing => have := g.rest b.timer (by simp); rw [hs] at this; simp [AtRest] at this
  | modifying => have := g.rest b.timer (by simp); rw [hs] at this; simp [AtRest] at this
  | moving => have := g.rest b.timer (by simp); rw [hs] at this; simp [AtRest] at this

theorem sweepLoop_spec {tg0 : Tg} (g : Good none tg0) (rest done : List (Bucket Nat))
    (s : Sweep) (P junk : List (Bucket Nat)) (h : SweepInv tg0 done rest s P junk) :
    ∃ s' P' junk', sweepLoop (List.range' done.length rest.length) s = .ok s' ∧
      SweepInv tg0 tg0.heap [] s' P' junk' := by
  induction rest generalizing done s P junk with
  | nil =>
    have : tg0.heap = done := by rw [h.heap]; simp
    refine ⟨s, P, junk, rfl, ?_⟩
    rw [this]; exact h
  | cons b rest ih =>
    obtain ⟨s1, P1, j1, r1, r2⟩ := sweepStep_spec g h
    obtain ⟨s', P', j', q1, q2⟩ := ih (done ++ [b]) s1 P1 j1 r2
    refine ⟨s', P', j', ?_, q2⟩
    rw [List.length_cons, List.range'_succ, sweepLoop, r1]
    simp only [Out.bind]
    rw [show (done ++ [b]).length = done.length + 1 from by simp] at q1
    exact q1

/-- `clearDeletedTimers` on a consistent queue always returns; it keeps exactly the timers that
are not deleted, with their current deadlines, and the queue stays consistent. -/
theorem clearDeleted_spec {tg : Tg} (g : Good none tg) :
    ∃ tg', clearDeleted tg = .ok tg' ∧ Good none tg' ∧
      tg'.heap.Perm (tg.heap.filterMap (sweepOf tg)) ∧
      (∀ u, tg'.tm u = if u ∈ tg.ids then sweptTm (tg.tm u) else tg.tm u) ∧
      tg'.fired = tg.fired ∧ tg'.modifiedEarliest = 0 := by
  have h0 : SweepInv tg [] tg.heap ⟨{ tg with modifiedEarliest := 0 }, tg.heap, 0, false, 0⟩ [] [] := by
    refine ⟨rfl, rfl, rfl, rfl, List.Perm.refl _, ?_, fun _ => ⟨rfl, rfl⟩, ?_, rfl, rfl, rfl, rfl, rfl, rfl⟩
    · intro k b p _ hb _; simp at hb
    · intro u; simp
  obtain ⟨s, P, junk, r1, h1, h2, h3, h4, h5, h6, h7, h8, h9, h10⟩ := sweepLoop_spec g _ _ _ _ _ h0
  rw [List.length_nil, ← List.range_eq_range'] at r1
  have hslice : sliceTo s.arr s.kept = some P := by
    rw [h2, h3, sliceTo, if_pos (by simp)]; simp
  let tg' := updateTimer0When { s.tg with
        heap := P
        deletedCount := s.tg.deletedCount - s.cdel
        timersCount := s.tg.timersCount - s.cdel }
  have hcl : clearDeleted tg = .ok tg' := by
    unfold clearDeleted
    rw [r1]
    simp only [Out.bind]
    rw [hslice]
  have htm : ∀ u, tg'.tm u = if u ∈ tg.ids then sweptTm (tg.tm u) else tg.tm u := h8
  -- the timers kept
  have hkey : ∀ c ∈ tg.heap.filterMap (sweepOf tg), ∃ b ∈ tg.heap, c.timer = b.timer ∧
      (tg.tm b.timer).status ≠ .deleted := by
    intro c hc
    obtain ⟨b, hb, e⟩ := List.mem_filterMap.mp hc
    refine ⟨b, hb, ?_⟩
    unfold sweepOf at e
    split at e
    · cases e
    · rename_i h; cases e; exact ⟨rfl, by rw [h]; simp⟩
    · rename_i h; cases e; exact ⟨rfl, by rw [h]; simp⟩
    · rename_i h _ _; cases e; exact ⟨rfl, h⟩
  have hmap : ∀ l : List (Bucket Nat), (l.filterMap (sweepOf tg)).map (·.timer) =
      (l.filter (fun b => !isDel tg b)).map (·.timer) := by
    intro l
    induction l with
    | nil => rfl
    | cons b l ih =>
      by_cases hd : (tg.tm b.timer).status = .deleted
      · have e1 : sweepOf tg b = none := by simp [sweepOf, hd]
        have e2 : isDel tg b = true := by simp [isDel, hd]
        rw [List.filterMap_cons, e1, List.filter_cons, e2]
        simp [ih]
      · have e1 : ∃ c, sweepOf tg b = some c ∧ c.timer = b.timer := by
          unfold sweepOf
          split
          · rename_i h; exact absurd h hd
          · exact ⟨_, rfl, rfl⟩
          · exact ⟨_, rfl, rfl⟩
          · exact ⟨_, rfl, rfl⟩
        obtain ⟨c, e1, e3⟩ := e1
        have e2 : isDel tg b = false := by simp [isDel, hd]
        rw [List.filterMap_cons, e1, List.filter_cons, e2]
        simp [ih, e3]
  have hids : tg'.ids.Perm ((tg.heap.filter (fun b => !isDel tg b)).map (·.timer)) := by
    show (P.map (·.timer)).Perm _
    rw [← hmap]; exact h5.map _
  have hmem : ∀ u, u ∈ tg'.ids ↔ u ∈ tg.ids ∧ (tg.tm u).status ≠ .deleted := by
    intro u
    rw [hids.mem_iff]
    simp only [List.mem_map, List.mem_filter, isDel, Bool.not_eq_true', decide_eq_false_iff_not, mem_ids]
    constructor
    · rintro ⟨b, ⟨h1, h2⟩, rfl⟩; exact ⟨⟨b, h1, rfl⟩, h2⟩
    · rintro ⟨⟨b, h1, rfl⟩, h2⟩; exact ⟨b, ⟨h1, h2⟩, rfl⟩
  have hlen : (P.length : Int) = tg.heap.length - tg.heap.countP (isDel tg) := by
    have e1 : P.length = (tg.heap.filter (fun b => !isDel tg b)).length := by
      have := hids.length_eq
      simp only [List.length_map] at this
      rw [← this]; simp [Tg.ids, tg', updateTimer0When]
    have e2 : tg.heap.length = tg.heap.countP (isDel tg) +
        tg.heap.countP (fun b => ¬ isDel tg b = true) := List.length_eq_countP_add_countP _
    have e3 : tg.heap.countP (fun b => ¬ isDel tg b = true) =
        (tg.heap.filter (fun b => !isDel tg b)).length := by
      rw [List.countP_eq_length_filter]
      congr 1
      apply List.filter_congr
      intro b _
      simp
    omega
  refine ⟨tg', hcl, ⟨h6, ?_, fun u e => (by cases e), ?_, ?_, ?_, ?_, ?_, ?_, ?_⟩, h5, htm,
    h10.2.2.2.1, h10.2.2.2.2⟩
  · rw [hids.nodup_iff]
    exact g.nodup.sublist (List.Sublist.map _ List.filter_sublist)
  · intro u _
    rw [hmem, htm]
    have gi := g.inn u (by simp)
    by_cases e : u ∈ tg.ids
    · rw [if_pos e]
      have := gi.mp e
      rw [sweptTm_status]
      by_cases d : (tg.tm u).status = .deleted
      · simp [d]
      · rw [if_neg d]
        constructor
        · intro _
          split
          · simp
          · exact this
        · intro _; exact ⟨e, d⟩
    · rw [if_neg e, ← gi]; simp [e]
  · intro u _
    rw [htm]
    have gr := g.rest u (by simp)
    by_cases e : u ∈ tg.ids
    · rw [if_pos e]
      unfold sweptTm
      split <;> first | exact gr | simp [AtRest]
    · rw [if_neg e]; exact gr
  · intro u _
    rw [hmem, htm]
    have gt := g.timing u (by simp)
    by_cases e : u ∈ tg.ids
    · rw [if_pos e]
      have ht := gt.mpr e
      rw [sweptTm_timing]
      by_cases d : (tg.tm u).status = .deleted
      · simp [d]
      · rw [if_neg d]; simp [e, d, ht]
    · rw [if_neg e, gt]; simp [e]
  · show s.tg.timersCount - s.cdel = (P.length : Int)
    rw [h10.2.1, h9, g.cnt, hlen]
  · show s.tg.deletedCount - s.cdel = (P.countP (isDel tg') : Int)
    have : P.countP (isDel tg') = 0 := by
      rw [List.countP_eq_zero]
      intro c hc
      have hu : c.timer ∈ tg'.ids := mem_ids.mpr ⟨c, hc, rfl⟩
      obtain ⟨e1, e2⟩ := (hmem _).mp hu
      simp only [isDel, decide_eq_true_eq]
      rw [htm, if_pos e1, sweptTm_status, if_neg e2]
      split
      · simp
      · exact e2
    rw [this, h10.2.2.1, h9, g.dcnt]; simp
  · rfl
  · intro c hc hw
    have hc' := h5.mem_iff.mp (show c ∈ P from hc)
    obtain ⟨b, hb, e⟩ := List.mem_filterMap.mp hc'
    have hbi : b.timer ∈ tg.ids := mem_ids.mpr ⟨b, hb, rfl⟩
    unfold sweepOf at e
    split at e
    · cases e
    · rename_i h; cases e
      left; simp only; rw [htm, if_pos hbi]; simp [sweptTm, h]
    · rename_i h; cases e
      left; simp only; rw [htm, if_pos hbi]; simp [sweptTm, h]
    · rename_i n1 n2 n3
      have e4 := Option.some.inj e
      subst e4
      have e3 := sweptTm_other _ n1 n2 n3
      rw [htm, if_pos hbi, e3] at hw ⊢
      exact g.same _ hb hw

end Memar.Timer.Queue
