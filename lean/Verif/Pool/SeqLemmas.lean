import Verif.Pool.CountLemmas

namespace Memar.Pool

/-! ## No nil ever enters a small pool -/

structure NoNil (w : World) : Prop where
  small : w.p.maxItems < 4
  idle : none ∉ w.p.idleItems
  victims : none ∉ w.p.victimItems
  vi1 : ∀ vi, w.cleaner = .sub vi → none ∉ vi
  vi2 : ∀ vi, w.cleaner = .close vi → none ∉ vi
  pcs : ∀ u ∈ w.users, u.pc ≠ .putPush none
  log : closedNilCount w.log = 0

theorem mem_of_mem_dropLast {α} {a : α} {l : List α} (h : a ∈ l.dropLast) : a ∈ l :=
  List.dropLast_subset l h

theorem freshIdle_small {p : LIFO} (h : p.maxItems < 4) : freshIdle p = [] := by
  have : p.maxItems.tdiv 4 ≤ 0 := by
    rcases Int.le_total 0 p.maxItems with h0 | h0
    · rw [Int.tdiv_eq_ediv_of_nonneg h0]; omega
    · have h1 := Int.neg_tdiv (a := -p.maxItems) (b := 4)
      rw [Int.neg_neg] at h1
      have h2 := Int.tdiv_nonneg (a := -p.maxItems) (b := 4) (by omega) (by omega)
      omega
  simp [freshIdle]; omega

theorem closedNilCount_closeAll (l : List (Option Nat)) : closedNilCount (closeAll l) = 0 := by
  simp only [closeAll, closedNilCount, List.countP_eq_zero, List.mem_map, List.mem_filter]
  rintro e ⟨o, ⟨-, ho⟩, rfl⟩
  cases o <;> simp_all [isClosedNil]

theorem popHead_noNil {p : LIFO} (h1 : none ∉ p.idleItems) (h2 : none ∉ p.victimItems) :
    none ∉ (popHead p).2.idleItems ∧ none ∉ (popHead p).2.victimItems := by
  unfold popHead
  split
  · exact ⟨h1, h2⟩
  · split
    · exact ⟨fun h => h1 (mem_of_mem_dropLast h), h2⟩
    · split
      · exact ⟨h1, fun h => h2 (mem_of_mem_dropLast h)⟩
      · exact ⟨h1, h2⟩

theorem mem_set_cases {l : List User} {i : Nat} {v u : User} (h : u ∈ l.set i v) : u ∈ l ∨ u = v :=
  List.mem_or_eq_of_mem_set h

theorem NoNil.step {w : World} (h : NoNil w) (a : Action) (ha : ∀ i, a ≠ .put i none) :
    NoNil (step w a) := by
  have hf := freshIdle_small h.small
  have setpc : ∀ i held pc, pc ≠ .putPush none → ∀ u ∈ w.users.set i ⟨held, pc⟩,
      u.pc ≠ .putPush none := by
    intro i held pc hpc u hu
    rcases mem_set_cases hu with hu | rfl
    · exact h.pcs u hu
    · exact hpc
  cases a with
  | get i =>
    unfold Pool.step; dsimp only
    split
    · split
      · unfold startGet
        split
        · exact ⟨h.small, h.idle, h.victims, h.vi1, h.vi2, h.pcs,
            by simp [closedNilCount_snoc, isClosedNil, h.log]⟩
        · exact ⟨h.small, h.idle, h.victims, h.vi1, h.vi2, setpc _ _ _ (by simp), h.log⟩
      · exact h
    · exact h
  | put i x =>
    have hx : x ≠ none := by rintro rfl; exact ha i rfl
    obtain ⟨y, rfl⟩ := Option.ne_none_iff_exists'.1 hx
    unfold Pool.step; dsimp only
    split
    · split
      · unfold startPut
        split
        · refine ⟨h.small, h.idle, h.victims, h.vi1, h.vi2, setpc _ _ _ (by simp), ?_⟩
          rw [snoc2, closedNilCount_snoc, closedNilCount_snoc]
          simp [isClosedNil, h.log]
        · exact ⟨h.small, h.idle, h.victims, h.vi1, h.vi2, setpc _ _ _ (by simp),
            by simp [closedNilCount_snoc, isClosedNil, h.log]⟩
      · exact h
    · exact h
  | step i =>
    unfold Pool.step; dsimp only
    split
    · next u hu =>
      unfold userStep
      obtain ⟨q1, q2⟩ := popHead_noNil h.idle h.victims
      have q3 := (popHead_fields w.p).1
      split
      · exact h
      · split
        · next hp =>
          rw [hp] at q1 q2 q3
          exact ⟨q3 ▸ h.small, q1, q2, h.vi1, h.vi2, setpc _ _ _ (by simp),
            by simp [closedNilCount_snoc, isClosedNil, h.log]⟩
        · next hp =>
          rw [hp] at q1 q2 q3
          split
          · exact ⟨q3 ▸ h.small, q1, q2, h.vi1, h.vi2, setpc _ _ _ (by simp), h.log⟩
          · exact ⟨q3 ▸ h.small, q1, q2, h.vi1, h.vi2, setpc _ _ _ (by simp),
              by simp [closedNilCount_snoc, isClosedNil, h.log]⟩
      · exact ⟨h.small, h.idle, h.victims, h.vi1, h.vi2, setpc _ _ _ (by simp), h.log⟩
      · split
        · exact ⟨h.small, h.idle, h.victims, h.vi1, h.vi2, setpc _ _ _ (by simp),
            by rw [(counts_new w.log i w.next).2.2, h.log]⟩
        · exact ⟨h.small, h.idle, h.victims, h.vi1, h.vi2, setpc _ _ _ (by simp),
            by simp [closedNilCount_snoc, isClosedNil, h.log]⟩
      · next x hpc =>
        have hx : x ≠ none := by
          rintro rfl; exact h.pcs u (List.mem_of_getElem? hu) hpc
        refine ⟨by simpa [(pushHead_fields w.p x).1] using h.small, ?_, ?_, h.vi1, h.vi2,
          setpc _ _ _ (by simp), h.log⟩
        · unfold pushHead; split
          · exact h.idle
          · simp [h.idle, Ne.symm hx]
        · unfold pushHead; split <;> exact h.victims
    · exact h
  | clean =>
    unfold Pool.step cleanStep; dsimp only
    split
    · split
      · exact ⟨h.small, h.idle, h.victims, fun _ e => (by cases e), fun _ e => (by cases e),
          h.pcs, h.log⟩
      · exact ⟨h.small, h.idle, h.victims, fun _ e => (by cases e), fun _ e => (by cases e),
          h.pcs, h.log⟩
    · refine ⟨h.small, by simp [hf], h.idle, fun vi e => ?_, fun _ e => (by cases e), h.pcs, h.log⟩
      cases e; exact h.victims
    · next vi hcl =>
      refine ⟨h.small, h.idle, h.victims, fun _ e => (by cases e), fun vi' e => ?_, h.pcs, h.log⟩
      cases e; exact h.vi1 vi hcl
    · exact ⟨h.small, h.idle, h.victims, fun _ e => (by cases e), fun _ e => (by cases e),
          h.pcs, h.log⟩
    · next x vi hcl =>
      have hx := h.vi2 _ hcl
      simp at hx
      refine ⟨h.small, h.idle, h.victims, fun _ e => (by cases e), fun vi' e => ?_, h.pcs, ?_⟩
      · cases e; exact hx.2
      · obtain ⟨y, rfl⟩ := Option.ne_none_iff_exists'.1 (fun e => hx.1 e.symm)
        simp [closedNilCount_snoc, isClosedNil, h.log]
    · exact h
  | close =>
    unfold Pool.step closeStep; dsimp only
    split
    · split
      · exact ⟨h.small, h.idle, h.victims, h.vi1, h.vi2, h.pcs, h.log⟩
      · exact h
    · refine ⟨h.small, h.idle, h.victims, h.vi1, h.vi2, h.pcs, ?_⟩
      have := closedNilCount_closeAll w.p.idleItems
      have h0 := h.log
      simp only [closedNilCount, List.countP_append] at *
      omega
    · exact ⟨h.small, h.idle, h.victims, h.vi1, h.vi2, h.pcs, h.log⟩
    · exact h

theorem run_induct_mem {P : World → Prop} {w : World} (as : List Action) (h0 : P w)
    (hs : ∀ w a, a ∈ as → P w → P (step w a)) : P (run w as) := by
  induction as generalizing w with
  | nil => exact h0
  | cons a t ih =>
    exact ih (hs w a (by simp) h0) (fun w b hb hw => hs w b (by simp [hb]) hw)

theorem Reaches.noNil {max : Int} {hasNew : Bool} {n : Nat} {as : List Action} {w : World}
    (h : Reaches max hasNew n as w) (hm : max < 4) (hn : NoNilPut as) : NoNil w := by
  obtain ⟨p, hp, rfl⟩ := h
  refine run_induct_mem as ?_ (fun w a ha hw => hw.step a (fun i e => hn i (e ▸ ha)))
  obtain ⟨h0, rfl⟩ := init_eq hp
  have hz : (max.tdiv 4).toNat = 0 := by
    have := freshIdle_small (p := declared max hasNew) hm
    simp only [freshIdle, declared, List.replicate_eq_nil_iff] at this
    exact this
  refine ⟨hm, ?_, ?_, fun _ e => (by cases e), fun _ e => (by cases e), ?_, rfl⟩
  · simp [World.start, hz]
  · simp [World.start]
  · intro u hu
    have := (List.mem_replicate.1 hu).2
    subst this; simp

/-! ## Undisturbed calls -/

theorem run_append (w : World) (as bs : List Action) : run w (as ++ bs) = run (run w as) bs :=
  List.foldl_append

/-- A world in which the pool is blank: every slot nil, one user outside, `c` on the counter. -/
structure Blank (w : World) (c : Int) : Prop where
  run : w.p.state = .running
  new : w.p.hasNew = true
  hot : w.p.hotItem = none
  idle : ∀ o ∈ w.p.idleItems, o = none
  victims : ∀ o ∈ w.p.victimItems, o = none
  user : ∃ held, w.users = [⟨held, .out⟩]
  cnt : w.p.itemsCount = c
  closer : w.closer = .notYet

theorem popHead_blank {p : LIFO} (hot : p.hotItem = none) (hi : ∀ o ∈ p.idleItems, o = none)
    (hv : ∀ o ∈ p.victimItems, o = none) :
    (popHead p).1 = none ∧ (popHead p).2.hotItem = none ∧
    (∀ o ∈ (popHead p).2.idleItems, o = none) ∧ (∀ o ∈ (popHead p).2.victimItems, o = none) := by
  unfold popHead
  simp only [hot]
  split
  · next x hx =>
    exact ⟨hi x (List.mem_of_getLast? hx), rfl,
      fun o ho => hi o (mem_of_mem_dropLast ho), hv⟩
  · split
    · next x hx =>
      exact ⟨hv x (List.mem_of_getLast? hx), rfl, hi,
        fun o ho => hv o (mem_of_mem_dropLast ho)⟩
    · exact ⟨rfl, hot, hi, hv⟩

theorem getCall_blank {w : World} {c : Int} (h : Blank w c) (hc : c + 1 ≤ w.p.maxItems) :
    Blank (run w (getCall 0)) (c + 1) ∧
    (run w (getCall 0)).p.maxItems = w.p.maxItems ∧
    (run w (getCall 0)).cleaner = w.cleaner ∧
    createdCount (run w (getCall 0)).log = createdCount w.log + 1 ∧
    closedCount (run w (getCall 0)).log = closedCount w.log := by
  obtain ⟨held, hu⟩ := h.user
  obtain ⟨b1, b2, b3, b4⟩ := popHead_blank h.hot h.idle h.victims
  obtain ⟨f1, f2, f3, f4⟩ := popHead_fields w.p
  have hs := not_isStop h.run
  have e1 : step w (.get 0) = { w with users := [⟨held, .getPop⟩] } := by
    simp [step, startGet, hu, hs]
  have e2 : step { w with users := [⟨held, .getPop⟩] } (.step 0)
      = { w with p := (popHead w.p).2, users := [⟨held, .getAdd⟩] } := by
    simp only [step, userStep, List.getElem?_cons_zero]
    have : popHead w.p = (none, (popHead w.p).2) := by rw [← b1]
    rw [this]
    simp [h.new]
  have e3 : step { w with p := (popHead w.p).2, users := [⟨held, .getAdd⟩] } (.step 0)
      = { w with p := { (popHead w.p).2 with itemsCount := c + 1 }
                 users := [⟨held, .getNew (c + 1)⟩] } := by
    simp [step, userStep, f3, h.cnt]
  have e4 : step { w with p := { (popHead w.p).2 with itemsCount := c + 1 }
                          users := [⟨held, .getNew (c + 1)⟩] } (.step 0)
      = { w with p := { (popHead w.p).2 with itemsCount := c + 1 }
                 users := [⟨w.next :: held, .out⟩], next := w.next + 1
                 log := w.log ++ [.created w.next, .got 0 (some w.next)] } := by
    simp [step, userStep, f1, hc, take]
  simp only [run, getCall, List.foldl_cons, List.foldl_nil]
  rw [e1, e2, e3, e4]
  obtain ⟨n1, n2, n3⟩ := counts_new w.log 0 w.next
  exact ⟨⟨f4.trans h.run, f2.trans h.new, b2, b3, b4, ⟨_, rfl⟩, rfl, h.closer⟩, f1, rfl, n1, n2⟩

theorem getCalls_blank {w : World} {c : Int} (h : Blank w c) (n : Nat)
    (hc : c + n ≤ w.p.maxItems) :
    ∃ w', w' = run w ((List.replicate n (getCall 0)).flatten) ∧ Blank w' (c + n) ∧
      w'.cleaner = w.cleaner ∧
      createdCount w'.log = createdCount w.log + n ∧ closedCount w'.log = closedCount w.log := by
  induction n generalizing w c with
  | zero => exact ⟨w, rfl, by simpa using h, rfl, rfl, rfl⟩
  | succ n ih =>
    obtain ⟨g1, g2, g3, g4, g5⟩ := getCall_blank h (by omega)
    obtain ⟨w', e, b, k1, k2, k3⟩ := ih g1 (by rw [g2]; omega)
    refine ⟨w', ?_, ?_, k1.trans g3, by omega, by omega⟩
    · rw [e, List.replicate_succ, List.flatten_cons, run_append]
    · have : c + 1 + (n : Int) = c + ((n + 1 : Nat) : Int) := by omega
      rw [← this]; exact b

/-- Closing `k` nil victims. -/
theorem close_nils (w : World) (k : Nat) (hc : w.cleaner = .close (List.replicate k none)) :
    run w (List.replicate (k + 1) .clean)
      = { w with cleaner := .sleep, log := w.log ++ List.replicate k (.closed none) } := by
  induction k generalizing w with
  | zero => simp [run, step, cleanStep, hc]
  | succ k ih =>
    rw [List.replicate_succ]
    have e1 : step w .clean
        = { w with cleaner := .close (List.replicate k none), log := w.log ++ [.closed none] } := by
      simp [step, cleanStep, hc, List.replicate_succ]
    show run (step w .clean) _ = _
    rw [e1, ih _ rfl]
    simp [List.replicate_succ]

/-- One round of the cleaner when the victims are `k` nils. -/
theorem clean_round (w : World) (k : Nat) (hrun : w.p.state = .running)
    (hs : w.cleaner = .sleep) (hv : w.p.victimItems = List.replicate k none) :
    run w (cleanCall k) =
      { w with p := { w.p with victimItems := w.p.idleItems, idleItems := freshIdle w.p
                               itemsCount := w.p.itemsCount - k }
               log := w.log ++ List.replicate k (.closed none) } := by
  have hc : cleanCall k = [.clean, .clean, .clean] ++ List.replicate (k + 1) .clean := by
    simp only [cleanCall]
    rw [show 4 + k = 3 + (k + 1) by omega, ← List.replicate_append_replicate]
    rfl
  rw [hc, run_append]
  have e : run w [.clean, .clean, .clean] =
      { w with p := { w.p with victimItems := w.p.idleItems, idleItems := freshIdle w.p
                               itemsCount := w.p.itemsCount - k }
               cleaner := .close (List.replicate k none) } := by
    simp [run, step, cleanStep, hs, not_isStop hrun, hv]
  rw [e, close_nils _ k rfl]
  simp [hs]

theorem replicate_counts (k : Nat) (l : List Event) :
    createdCount (l ++ List.replicate k (.closed none)) = createdCount l ∧
    closedCount (l ++ List.replicate k (.closed none)) = closedCount l := by
  simp [createdCount, closedCount, List.countP_append, List.countP_replicate, isCreated,
    isClosedItem]

/-- What a complete `Put` does in a running pool. -/
theorem putCall_run {w : World} {i : Nat} {u : User} {x : Nat} (hrun : w.p.state = .running)
    (hu : w.users[i]? = some u) (hpc : u.pc = .out) (hx : x ∈ u.held) :
    run w (putCall i x) = { w with p := pushHead w.p (some x)
                                   users := w.users.set i ⟨u.held.erase x, .out⟩
                                   log := w.log ++ [.gave i (some x)] } := by
  have hlen := (List.getElem?_eq_some_iff.1 hu).1
  have hs := not_isStop hrun
  have e1 : step w (.put i (some x))
      = { w with users := w.users.set i ⟨u.held.erase x, .putPush (some x)⟩
                 log := w.log ++ [.gave i (some x)] } := by
    simp only [step, hu, startPut, hs, give]
    rw [if_pos ⟨hpc, fun y e => by cases e; exact hx⟩]
    rfl
  have e2 : step { w with users := w.users.set i ⟨u.held.erase x, .putPush (some x)⟩
                          log := w.log ++ [.gave i (some x)] } (.step i)
      = { w with p := pushHead w.p (some x), users := w.users.set i ⟨u.held.erase x, .out⟩
                 log := w.log ++ [.gave i (some x)] } := by
    simp only [step, userStep, List.getElem?_set_self hlen]
    simp
  simp only [run, putCall, List.foldl_cons, List.foldl_nil]
  rw [e1, e2]

/-- What a complete `Get` does in a running pool that pops an item. -/
theorem getCall_run {w : World} {i : Nat} {u : User} {x : Nat} (hrun : w.p.state = .running)
    (hu : w.users[i]? = some u) (hpc : u.pc = .out) (hx : (popHead w.p).1 = some x) :
    run w (getCall i) = { w with p := (popHead w.p).2
                                 users := w.users.set i ⟨x :: u.held, .out⟩
                                 log := w.log ++ [.got i (some x)] } := by
  have hlen := (List.getElem?_eq_some_iff.1 hu).1
  have hs := not_isStop hrun
  have hp : popHead w.p = (some x, (popHead w.p).2) := by rw [← hx]
  have e1 : step w (.get i) = { w with users := w.users.set i ⟨u.held, .getPop⟩ } := by
    simp [step, startGet, hu, hpc, hs]
  have e2 : step { w with users := w.users.set i ⟨u.held, .getPop⟩ } (.step i)
      = { w with p := (popHead w.p).2, users := w.users.set i ⟨x :: u.held, .out⟩
                 log := w.log ++ [.got i (some x)] } := by
    simp only [step, userStep, List.getElem?_set_self hlen]
    rw [hp]
    simp [take]
  have e3 : step { w with p := (popHead w.p).2, users := w.users.set i ⟨x :: u.held, .out⟩
                          log := w.log ++ [.got i (some x)] } (.step i)
      = { w with p := (popHead w.p).2, users := w.users.set i ⟨x :: u.held, .out⟩
                 log := w.log ++ [.got i (some x)] } := by
    simp only [step, userStep, List.getElem?_set_self hlen]
  simp only [run, getCall, List.foldl_cons, List.foldl_nil]
  rw [e1, e2, e3, e3]

theorem putCall_facts {w : World} {i : Nat} {u : User} {x : Nat} (hrun : w.p.state = .running)
    (hu : w.users[i]? = some u) (hpc : u.pc = .out) (hx : x ∈ u.held) :
    (run w (putCall i x)).p = pushHead w.p (some x) ∧
    (run w (putCall i x)).p.state = .running ∧
    (run w (putCall i x)).users[i]? = some ⟨u.held.erase x, .out⟩ ∧
    (run w (putCall i x)).log = w.log ++ [.gave i (some x)] := by
  have hlen := (List.getElem?_eq_some_iff.1 hu).1
  rw [putCall_run hrun hu hpc hx]
  exact ⟨rfl, (pushHead_fields w.p _).2.2.2.trans hrun, by simp [hlen], rfl⟩

end Memar.Pool
