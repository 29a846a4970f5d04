import Verif.Pool.Lemmas

namespace Memar.Pool

/-! ## Counting created, approved and retired items -/

/-- A user that was allowed to create an item and has not done it yet. -/
def approved (max : Int) (u : User) : Nat :=
  match u.pc with
  | .getNew ic => if ic ≤ max then 1 else 0
  | _ => 0

/-- A user that was refused and has not undone its addition yet. -/
def refused (max : Int) (u : User) : Nat :=
  match u.pc with
  | .getNew ic => if ic ≤ max then 0 else 1
  | _ => 0

def approvedN (w : World) : Nat := (w.users.map (approved w.p.maxItems)).sum
def refusedN (w : World) : Nat := (w.users.map (refused w.p.maxItems)).sum

/-- Victims the cleaner has taken off the count and not closed yet. -/
def pending (c : CleanPc) : Nat :=
  match c with
  | .close vi => vi.length
  | _ => 0

/-- Everything the cleaner subtracted so far. -/
def retired (w : World) : Nat := closedCount w.log + closedNilCount w.log + pending w.cleaner

structure Cnt (w : World) : Prop where
  run : w.p.state = .running
  cre : createdCount w.log = w.next
  cnt : w.p.itemsCount = w.next + approvedN w + refusedN w - retired w
  lim : (w.next : Int) + approvedN w - retired w ≤ max w.p.maxItems 0

def CntInv (w : World) : Prop := w.closer = .notYet → Cnt w

theorem createdCount_snoc (l : List Event) (e : Event) :
    createdCount (l ++ [e]) = createdCount l + if isCreated e then 1 else 0 := by
  simp [createdCount, List.countP_append, List.countP_cons]

theorem closedCount_snoc (l : List Event) (e : Event) :
    closedCount (l ++ [e]) = closedCount l + if isClosedItem e then 1 else 0 := by
  simp [closedCount, List.countP_append, List.countP_cons]

theorem closedNilCount_snoc (l : List Event) (e : Event) :
    closedNilCount (l ++ [e]) = closedNilCount l + if isClosedNil e then 1 else 0 := by
  simp [closedNilCount, List.countP_append, List.countP_cons]

theorem snoc2 {α} (l : List α) (a b : α) : l ++ [a, b] = (l ++ [a]) ++ [b] := by simp

theorem counts_new (l : List Event) (i n : Nat) :
    createdCount (l ++ [.created n, .got i (some n)]) = createdCount l + 1 ∧
    closedCount (l ++ [.created n, .got i (some n)]) = closedCount l ∧
    closedNilCount (l ++ [.created n, .got i (some n)]) = closedNilCount l := by
  simp [createdCount, closedCount, closedNilCount, List.countP_append, List.countP_cons,
    isCreated, isClosedItem, isClosedNil]

theorem CntInv.of_get {w : World} (h : CntInv w) {i : Nat} {u : User}
    (hu : w.users[i]? = some u) (hpc : u.pc = .out) : CntInv (startGet w i u) := by
  unfold startGet
  intro hc
  split at hc <;> rename_i hs
  · have h := h hc
    rw [if_pos hs]
    refine ⟨h.run, ?_, ?_, ?_⟩
    · simp [createdCount_snoc, isCreated, h.cre]
    · have := h.cnt
      simpa [approvedN, refusedN, retired, closedCount_snoc, closedNilCount_snoc, isClosedItem,
        isClosedNil] using this
    · have := h.lim
      simpa [approvedN, refusedN, retired, closedCount_snoc, closedNilCount_snoc, isClosedItem,
        isClosedNil] using this
  · have h := h hc
    rw [if_neg hs]
    have ha := sum_set w.users (approved w.p.maxItems) i u ⟨u.held, .getPop⟩ hu
    have hr := sum_set w.users (refused w.p.maxItems) i u ⟨u.held, .getPop⟩ hu
    have a0 : approved w.p.maxItems u = 0 := by simp [approved, hpc]
    have r0 : refused w.p.maxItems u = 0 := by simp [refused, hpc]
    have a1 : approved w.p.maxItems ⟨u.held, .getPop⟩ = 0 := rfl
    have r1 : refused w.p.maxItems ⟨u.held, .getPop⟩ = 0 := rfl
    have h1 := h.cnt; have h2 := h.lim
    simp only [approvedN, refusedN, retired] at h1 h2
    refine ⟨h.run, h.cre, ?_, ?_⟩ <;> simp only [approvedN, refusedN, retired] <;> omega

theorem not_isStop {p : LIFO} (h : p.state = .running) : isStop p = false := by
  simp [isStop, h]

theorem CntInv.of_put {w : World} (h : CntInv w) {i : Nat} {u : User}
    (hu : w.users[i]? = some u) (hpc : u.pc = .out) (x : Option Nat) :
    CntInv (startPut w i u x) := by
  unfold startPut
  by_cases hs : isStop w.p = true
  · rw [if_pos hs]
    intro hc
    have := not_isStop (h hc).run
    rw [this] at hs; cases hs
  · rw [if_neg hs]
    intro hc
    have h := h hc
    have ha := sum_set w.users (approved w.p.maxItems) i u ⟨give u.held x, .putPush x⟩ hu
    have hr := sum_set w.users (refused w.p.maxItems) i u ⟨give u.held x, .putPush x⟩ hu
    have a0 : approved w.p.maxItems u = 0 := by simp [approved, hpc]
    have r0 : refused w.p.maxItems u = 0 := by simp [refused, hpc]
    have a1 : approved w.p.maxItems ⟨give u.held x, .putPush x⟩ = 0 := rfl
    have r1 : refused w.p.maxItems ⟨give u.held x, .putPush x⟩ = 0 := rfl
    have h1 := h.cnt; have h2 := h.lim
    simp only [approvedN, refusedN, retired] at h1 h2
    refine ⟨h.run, by simp [createdCount_snoc, isCreated, h.cre], ?_, ?_⟩ <;>
      simp only [approvedN, refusedN, retired, closedCount_snoc, closedNilCount_snoc,
        isClosedItem, isClosedNil, Bool.false_eq_true, if_false] <;> omega

theorem CntInv.of_userStep {w : World} (h : CntInv w) {i : Nat} {u : User}
    (hu : w.users[i]? = some u) : CntInv (userStep w i u) := by
  have ha := fun v => sum_set w.users (approved w.p.maxItems) i u v hu
  have hr := fun v => sum_set w.users (refused w.p.maxItems) i u v hu
  unfold userStep
  split
  · exact h
  · next hpc =>
    have a0 : approved w.p.maxItems u = 0 := by simp [approved, hpc]
    have r0 : refused w.p.maxItems u = 0 := by simp [refused, hpc]
    obtain ⟨f1, f2, f3, f4⟩ := popHead_fields w.p
    split
    · next x p' hp =>
      rw [hp] at f1 f2 f3 f4
      simp only at f1 f2 f3 f4
      intro hc
      have h := h hc
      have h1 := h.cnt; have h2 := h.lim
      have ha := ha ⟨take u.held (some x), .out⟩
      have hr := hr ⟨take u.held (some x), .out⟩
      have a1 : approved w.p.maxItems ⟨take u.held (some x), .out⟩ = 0 := rfl
      have r1 : refused w.p.maxItems ⟨take u.held (some x), .out⟩ = 0 := rfl
      simp only [approvedN, refusedN, retired] at h1 h2
      refine ⟨f4.trans h.run, by simp [createdCount_snoc, isCreated, h.cre], ?_, ?_⟩ <;>
        simp only [approvedN, refusedN, retired, closedCount_snoc, closedNilCount_snoc,
          isClosedItem, isClosedNil, Bool.false_eq_true, if_false, f1, f3] <;> omega
    · next p' hp =>
      rw [hp] at f1 f2 f3 f4
      simp only at f1 f2 f3 f4
      split
      · intro hc
        have h := h hc
        have h1 := h.cnt; have h2 := h.lim
        have ha := ha ⟨u.held, .getAdd⟩
        have hr := hr ⟨u.held, .getAdd⟩
        have a1 : approved w.p.maxItems ⟨u.held, .getAdd⟩ = 0 := rfl
        have r1 : refused w.p.maxItems ⟨u.held, .getAdd⟩ = 0 := rfl
        simp only [approvedN, refusedN, retired] at h1 h2
        refine ⟨f4.trans h.run, h.cre, ?_, ?_⟩ <;>
          simp only [approvedN, refusedN, retired, f1, f3] <;> omega
      · intro hc
        have h := h hc
        have h1 := h.cnt; have h2 := h.lim
        have ha := ha ⟨u.held, .out⟩
        have hr := hr ⟨u.held, .out⟩
        have a1 : approved w.p.maxItems ⟨u.held, .out⟩ = 0 := rfl
        have r1 : refused w.p.maxItems ⟨u.held, .out⟩ = 0 := rfl
        simp only [approvedN, refusedN, retired] at h1 h2
        refine ⟨f4.trans h.run, by simp [createdCount_snoc, isCreated, h.cre], ?_, ?_⟩ <;>
          simp only [approvedN, refusedN, retired, closedCount_snoc, closedNilCount_snoc,
            isClosedItem, isClosedNil, Bool.false_eq_true, if_false, f1, f3] <;> omega
  · next hpc =>
    have a0 : approved w.p.maxItems u = 0 := by simp [approved, hpc]
    have r0 : refused w.p.maxItems u = 0 := by simp [refused, hpc]
    intro hc
    have h := h hc
    have h1 := h.cnt; have h2 := h.lim
    have ha := ha ⟨u.held, .getNew (w.p.itemsCount + 1)⟩
    have hr := hr ⟨u.held, .getNew (w.p.itemsCount + 1)⟩
    simp only [approvedN, refusedN, retired] at h1 h2
    by_cases hm : w.p.itemsCount + 1 ≤ w.p.maxItems
    · have a1 : approved w.p.maxItems ⟨u.held, .getNew (w.p.itemsCount + 1)⟩ = 1 := by
        simp [approved, hm]
      have r1 : refused w.p.maxItems ⟨u.held, .getNew (w.p.itemsCount + 1)⟩ = 0 := by
        simp [refused, hm]
      refine ⟨h.run, h.cre, ?_, ?_⟩ <;>
        simp only [approvedN, refusedN, retired] <;> omega
    · have a1 : approved w.p.maxItems ⟨u.held, .getNew (w.p.itemsCount + 1)⟩ = 0 := by
        simp [approved, hm]
      have r1 : refused w.p.maxItems ⟨u.held, .getNew (w.p.itemsCount + 1)⟩ = 1 := by
        simp [refused, hm]
      refine ⟨h.run, h.cre, ?_, ?_⟩ <;>
        simp only [approvedN, refusedN, retired] <;> omega
  · next ic hpc =>
    split
    · next hm =>
      have a0 : approved w.p.maxItems u = 1 := by simp [approved, hpc, hm]
      have r0 : refused w.p.maxItems u = 0 := by simp [refused, hpc, hm]
      intro hc
      have h := h hc
      have h1 := h.cnt; have h2 := h.lim
      have ha := ha ⟨take u.held (some w.next), .out⟩
      have hr := hr ⟨take u.held (some w.next), .out⟩
      have a1 : approved w.p.maxItems ⟨take u.held (some w.next), .out⟩ = 0 := rfl
      have r1 : refused w.p.maxItems ⟨take u.held (some w.next), .out⟩ = 0 := rfl
      simp only [approvedN, refusedN, retired] at h1 h2
      obtain ⟨n1, n2, n3⟩ := counts_new w.log i w.next
      refine ⟨h.run, by rw [n1, h.cre], ?_, ?_⟩ <;>
        simp only [approvedN, refusedN, retired, n2, n3] <;> omega
    · next hm =>
      have a0 : approved w.p.maxItems u = 0 := by simp [approved, hpc, hm]
      have r0 : refused w.p.maxItems u = 1 := by simp [refused, hpc, hm]
      intro hc
      have h := h hc
      have h1 := h.cnt; have h2 := h.lim
      have ha := ha ⟨u.held, .out⟩
      have hr := hr ⟨u.held, .out⟩
      have a1 : approved w.p.maxItems ⟨u.held, .out⟩ = 0 := rfl
      have r1 : refused w.p.maxItems ⟨u.held, .out⟩ = 0 := rfl
      simp only [approvedN, refusedN, retired] at h1 h2
      refine ⟨h.run, by simp [createdCount_snoc, isCreated, h.cre], ?_, ?_⟩ <;>
        simp only [approvedN, refusedN, retired, closedCount_snoc, closedNilCount_snoc,
          isClosedItem, isClosedNil, Bool.false_eq_true, if_false] <;> omega
  · next x hpc =>
    have a0 : approved w.p.maxItems u = 0 := by simp [approved, hpc]
    have r0 : refused w.p.maxItems u = 0 := by simp [refused, hpc]
    obtain ⟨f1, f2, f3, f4⟩ := pushHead_fields w.p x
    intro hc
    have h := h hc
    have h1 := h.cnt; have h2 := h.lim
    have ha := ha ⟨u.held, .out⟩
    have hr := hr ⟨u.held, .out⟩
    have a1 : approved w.p.maxItems ⟨u.held, .out⟩ = 0 := rfl
    have r1 : refused w.p.maxItems ⟨u.held, .out⟩ = 0 := rfl
    simp only [approvedN, refusedN, retired] at h1 h2
    refine ⟨f4.trans h.run, h.cre, ?_, ?_⟩ <;>
      simp only [approvedN, refusedN, retired, f1, f3] <;> omega

theorem CntInv.of_clean {w : World} (h : CntInv w) : CntInv (cleanStep w) := by
  unfold cleanStep
  split
  · next hcl =>
    split
    · next hs =>
      intro hc
      rw [not_isStop (h hc).run] at hs; cases hs
    · intro hc
      have h := h hc
      have h1 := h.cnt; have h2 := h.lim
      simp only [approvedN, refusedN, retired, hcl, pending] at h1 h2
      refine ⟨h.run, h.cre, ?_, ?_⟩ <;> simp only [approvedN, refusedN, retired, pending] <;> omega
  · next hcl =>
    intro hc
    have h := h hc
    have h1 := h.cnt; have h2 := h.lim
    simp only [approvedN, refusedN, retired, hcl, pending] at h1 h2
    refine ⟨h.run, h.cre, ?_, ?_⟩ <;> simp only [approvedN, refusedN, retired, pending] <;> omega
  · next vi hcl =>
    intro hc
    have h := h hc
    have h1 := h.cnt; have h2 := h.lim
    simp only [approvedN, refusedN, retired, hcl, pending] at h1 h2
    refine ⟨h.run, h.cre, ?_, ?_⟩ <;> simp only [approvedN, refusedN, retired, pending] <;> omega
  · next hcl =>
    intro hc
    have h := h hc
    have h1 := h.cnt; have h2 := h.lim
    simp only [approvedN, refusedN, retired, hcl, pending, List.length_nil] at h1 h2
    refine ⟨h.run, h.cre, ?_, ?_⟩ <;> simp only [approvedN, refusedN, retired, pending] <;> omega
  · next x vi hcl =>
    intro hc
    have h := h hc
    have h1 := h.cnt; have h2 := h.lim
    simp only [approvedN, refusedN, retired, hcl, pending, List.length_cons] at h1 h2
    refine ⟨h.run, by simp [createdCount_snoc, isCreated, h.cre], ?_, ?_⟩ <;>
      simp only [approvedN, refusedN, retired, pending, closedCount_snoc, closedNilCount_snoc] <;>
      cases x <;> simp only [isClosedItem, isClosedNil, Bool.false_eq_true, if_false, if_true] <;>
      omega
  · exact h

theorem CntInv.of_close {w : World} (h : CntInv w) : CntInv (closeStep w) := by
  unfold closeStep
  split
  · split
    · intro hc; cases hc
    · exact h
  · intro hc; cases hc
  · intro hc; cases hc
  · exact h

theorem CntInv.step {w : World} (h : CntInv w) (a : Action) : CntInv (step w a) := by
  cases a with
  | get i =>
    unfold Pool.step
    dsimp only
    split
    · next u hu =>
      split
      · next hpc => exact h.of_get hu hpc
      · exact h
    · exact h
  | put i x =>
    unfold Pool.step
    dsimp only
    split
    · next u hu =>
      split
      · next hc => exact h.of_put hu hc.1 x
      · exact h
    · exact h
  | step i =>
    unfold Pool.step
    dsimp only
    split
    · next u hu => exact h.of_userStep hu
    · exact h
  | clean => exact h.of_clean
  | close => exact h.of_close

theorem sum_replicate_zero (n : Nat) (f : User → Nat) (u : User) (h : f u = 0) :
    ((List.replicate n u).map f).sum = 0 := by
  induction n with
  | zero => rfl
  | succ n ih => simp [List.replicate_succ, h]

theorem CntInv.start {max : Int} {hasNew : Bool} {p : LIFO} {n : Nat}
    (h : init (declared max hasNew) = some p) : CntInv (World.start p n) := by
  obtain ⟨hm, rfl⟩ := init_eq h
  intro _
  refine ⟨rfl, rfl, ?_, ?_⟩
  · simp only [World.start, approvedN, refusedN, retired, pending]
    rw [sum_replicate_zero _ _ _ rfl, sum_replicate_zero _ _ _ rfl]
    rfl
  · simp only [World.start, approvedN, refusedN, retired, pending]
    rw [sum_replicate_zero _ _ _ rfl]
    simp only [closedCount, closedNilCount, List.countP_nil]
    omega

theorem Reaches.cnt {max : Int} {hasNew : Bool} {n : Nat} {as : List Action} {w : World}
    (h : Reaches max hasNew n as w) : CntInv w := by
  obtain ⟨p, hp, rfl⟩ := h
  exact run_induct (CntInv.start hp) (fun w a hw => hw.step a) as

/-! ## The limit never changes -/

theorem step_max (w : World) (a : Action) : (step w a).p.maxItems = w.p.maxItems := by
  cases a with
  | get i =>
    unfold Pool.step startGet; dsimp only
    repeat' split
    all_goals rfl
  | put i x =>
    unfold Pool.step startPut; dsimp only
    repeat' split
    all_goals rfl
  | step i =>
    unfold Pool.step userStep; dsimp only
    have f := (popHead_fields w.p).1
    split
    · split
      · rfl
      · split
        · next hp => rw [hp] at f; exact f
        · next hp =>
          rw [hp] at f
          split <;> exact f
      · rfl
      · split <;> rfl
      · exact (pushHead_fields w.p _).1
    · rfl
  | clean =>
    unfold Pool.step cleanStep; dsimp only
    repeat' split
    all_goals rfl
  | close =>
    unfold Pool.step closeStep; dsimp only
    repeat' split
    all_goals rfl

theorem Reaches.max_eq {max : Int} {hasNew : Bool} {n : Nat} {as : List Action} {w : World}
    (h : Reaches max hasNew n as w) : w.p.maxItems = max := by
  obtain ⟨p, hp, rfl⟩ := h
  refine run_induct (P := fun w => w.p.maxItems = max) ?_ (fun w a hw => by rw [step_max, hw]) as
  obtain ⟨-, rfl⟩ := init_eq hp
  rfl

/-! ## Closed items -/

structure Dead (w : World) : Prop where
  dead : ∀ x, .closed (some x) ∈ w.log → owned w x = 0 ∧ x < w.next
  after : NotAfterClose w.log
  once : ClosedOnce w.log
  run : w.p.state = .running

def DeadInv (w : World) : Prop := w.closer = .notYet → Dead w

theorem NotAfterClose.snoc {log : List Event} (h : NotAfterClose log) (e : Event)
    (he : ∀ i x, e = .got i (some x) → .closed (some x) ∉ log) : NotAfterClose (log ++ [e]) := by
  intro pre mid post i x hl
  have hl' : log ++ [e] = (pre ++ .closed (some x) :: mid) ++ .got i (some x) :: post := by
    rw [hl]; simp
  rcases split_snoc hl' with ⟨-, hg, hpre⟩ | ⟨p', -, hlog⟩
  · exact he i x hg.symm (by rw [← hpre]; simp)
  · exact h pre mid p' i x (by rw [hlog]; simp)

theorem ClosedOnce.snoc {log : List Event} (h : ClosedOnce log) (e : Event)
    (he : ∀ x, e = .closed (some x) → .closed (some x) ∉ log) : ClosedOnce (log ++ [e]) := by
  intro pre mid post x hl
  have hl' : log ++ [e] = (pre ++ .closed (some x) :: mid) ++ .closed (some x) :: post := by
    rw [hl]; simp
  rcases split_snoc hl' with ⟨-, hg, hpre⟩ | ⟨p', -, hlog⟩
  · exact he x hg.symm (by rw [← hpre]; simp)
  · exact h pre mid p' x (by rw [hlog]; simp)

/-- A step that closes nothing and after which no more is owned than before. -/
theorem Dead.calm {w w' : World} (h : Dead w) (hrun : w'.p.state = .running)
    (hown : ∀ x, owned w' x ≤ owned w x) (hnext : w'.next = w.next)
    (hlog : w'.log = w.log ∨ ∃ e, w'.log = w.log ++ [e] ∧ (∀ x, e ≠ .closed (some x)) ∧
      (∀ i x, e = .got i (some x) → 1 ≤ owned w x)) : Dead w' := by
  rcases hlog with hlog | ⟨e, hlog, hcl, hgot⟩
  · refine ⟨fun x hx => ?_, by rw [hlog]; exact h.after, by rw [hlog]; exact h.once, hrun⟩
    rw [hlog] at hx
    have := h.dead x hx
    have := hown x
    rw [hnext]
    omega
  · refine ⟨fun x hx => ?_, ?_, ?_, hrun⟩
    · rw [hlog] at hx
      simp at hx
      rcases hx with hx | hx
      · have := h.dead x hx
        have := hown x
        rw [hnext]
        omega
      · exact absurd hx.symm (hcl x)
    · rw [hlog]
      refine h.after.snoc e (fun i x he hx => ?_)
      have := hgot i x he
      have := h.dead x hx
      omega
    · rw [hlog]
      exact h.once.snoc e (fun x he => absurd he (hcl x))

/-- What every step does to ownership, as far as the pool is not being closed: nothing grows,
except for the item just created. -/
theorem DeadInv.step {w : World} (hI : Inv w) (h : DeadInv w) (a : Action) :
    DeadInv (step w a) := by
  intro hc
  cases a with
  | close =>
    unfold Pool.step closeStep at hc ⊢
    dsimp only at hc ⊢
    split at hc
    · split at hc
      · cases hc
      · next hne => rw [if_neg hne]; exact h hc
    · cases hc
    · cases hc
    · next hx => exact h hc
  | clean =>
    have hcc : w.closer = .notYet := by
      unfold Pool.step cleanStep at hc
      dsimp only at hc
      repeat' split at hc
      all_goals exact hc
    have h := h hcc
    unfold Pool.step cleanStep
    dsimp only
    split
    · next hcl =>
      rw [if_neg (by simp [not_isStop h.run])]
      exact h.calm h.run (fun y => by simp [owned, hcl, cleanCount]) rfl (.inl rfl)
    · next hcl =>
      refine h.calm h.run (fun y => ?_) rfl (.inl rfl)
      have := freshIdle_count w.p y
      simp only [owned, hcl, cleanCount, poolCount] at *
      omega
    · next vi hcl =>
      exact h.calm h.run (fun y => by simp [owned, hcl, cleanCount, poolCount]) rfl (.inl rfl)
    · next hcl =>
      exact h.calm h.run (fun y => by simp [owned, hcl, cleanCount]) rfl (.inl rfl)
    · next x vi hcl =>
      have hown : ∀ y, owned { w with cleaner := .close vi, log := w.log ++ [.closed x] } y
          + optCount x y = owned w y := by
        intro y
        simp only [owned, hcl, cleanCount, List.count_cons, optCount]
        by_cases e : x = some y
        · simp [e]; omega
        · simp [e]
      refine ⟨fun y hy => ?_, ?_, ?_, h.run⟩
      · have h0 := hown y
        simp at hy
        rcases hy with hy | hy
        · have := h.dead y hy
          exact ⟨by omega, this.2⟩
        · have h1 := hI.own y
          subst hy
          simp only [optCount, if_true] at h0
          refine ⟨by omega, ?_⟩
          rcases Nat.lt_or_ge y w.next with hn | hn
          · exact hn
          · have := hI.fresh y hn; omega
      · exact h.after.snoc _ (fun i y e => by cases e)
      · refine h.once.snoc _ (fun y e hy => ?_)
        cases e
        have h0 := hown y
        have := h.dead y hy
        simp only [optCount, if_true] at h0
        omega
    · exact h
  | get i =>
    unfold Pool.step at hc ⊢
    dsimp only at hc ⊢
    split at hc
    · next u hu =>
      split at hc
      · next hpc =>
        rw [if_pos hpc]
        have hcc : w.closer = .notYet := by
          unfold startGet at hc
          split at hc <;> exact hc
        have h := h hcc
        unfold startGet
        rw [if_neg (by simp [not_isStop h.run])]
        refine h.calm h.run (fun y => ?_) rfl (.inl rfl)
        have := usersCount_set w.users i u ⟨u.held, .getPop⟩ y hu
        simp only [owned, poolCount, userCount, pcCount, hpc] at *; omega
      · next hpc => rw [if_neg hpc]; exact h hc
    · exact h hc
  | put i x =>
    unfold Pool.step at hc ⊢
    dsimp only at hc ⊢
    split at hc
    · next u hu =>
      split at hc
      · next hpc =>
        rw [if_pos hpc]
        have hcc : w.closer = .notYet := by
          unfold startPut at hc
          split at hc <;> exact hc
        have h := h hcc
        unfold startPut
        rw [if_neg (by simp [not_isStop h.run])]
        refine h.calm h.run (fun y => ?_) rfl (.inr ⟨_, rfl, fun _ => by simp, fun _ _ => by simp⟩)
        have := usersCount_set w.users i u ⟨give u.held x, .putPush x⟩ y hu
        have := count_give hpc.2 y
        simp only [owned, poolCount, userCount, pcCount, hpc.1] at *; omega
      · next hpc => rw [if_neg hpc]; exact h hc
    · exact h hc
  | step i =>
    unfold Pool.step at hc ⊢
    dsimp only at hc ⊢
    split at hc
    · next u hu =>
      have hcc : w.closer = .notYet := by
        unfold userStep at hc
        repeat' split at hc
        all_goals exact hc
      have h := h hcc
      unfold userStep
      split
      · exact h
      · next hpc =>
        have hcnt := popHead_count w.p
        have hst := (popHead_fields w.p).2.2.2
        split
        · next x p' hp =>
          rw [hp] at hcnt hst
          refine h.calm (hst.trans h.run) (fun y => ?_) rfl
            (.inr ⟨_, rfl, fun _ => by simp, fun j y e => ?_⟩)
          · have := usersCount_set w.users i u ⟨take u.held (some x), .out⟩ y hu
            have h2 := userCount_take u.held (some x) y
            have := hcnt y
            have h3 : userCount u y = u.held.count y := by simp [userCount, hpc, pcCount]
            simp only [owned] at *; omega
          · cases e
            have := hcnt x
            simp [optCount] at this
            simp only [owned]; omega
        · next p' hp =>
          rw [hp] at hcnt hst
          have key : ∀ pc, pcCount pc = (fun _ => 0) → ∀ y,
              poolCount p' y + usersCount (w.users.set i ⟨u.held, pc⟩) y
              ≤ poolCount w.p y + usersCount w.users y := by
            intro pc hpc' y
            have := usersCount_set w.users i u ⟨u.held, pc⟩ y hu
            have := hcnt y
            simp only [userCount, hpc, hpc'] at *
            simp only [pcCount] at *; omega
          split
          · refine h.calm (hst.trans h.run) (fun y => ?_) rfl (.inl rfl)
            have := key .getAdd (by funext; rfl) y; simp only [owned] at *; omega
          · refine h.calm (hst.trans h.run) (fun y => ?_) rfl
              (.inr ⟨_, rfl, fun _ => by simp, fun _ _ => by simp⟩)
            have := key .out (by funext; rfl) y; simp only [owned] at *; omega
      · next hpc =>
        refine h.calm h.run (fun y => ?_) rfl (.inl rfl)
        have := usersCount_set w.users i u ⟨u.held, .getNew (w.p.itemsCount + 1)⟩ y hu
        simp only [owned, poolCount, userCount, pcCount, hpc] at *; omega
      · next ic hpc =>
        split
        · have h0 := hI.fresh w.next (Nat.le_refl _)
          have hnc : .closed (some w.next) ∉ w.log := by
            intro hx
            have := (h.dead _ hx).2
            omega
          refine ⟨fun y hy => ?_, ?_, ?_, h.run⟩
          · simp at hy
            have h1 := h.dead y hy
            have := usersCount_set w.users i u ⟨take u.held (some w.next), .out⟩ y hu
            have h2 := userCount_take u.held (some w.next) y
            have h3 : userCount u y = u.held.count y := by simp [userCount, hpc, pcCount]
            have e : ¬ w.next = y := by omega
            simp only [optCount, Option.some.injEq, e, if_false] at h2
            simp only [owned] at *
            omega
          · rw [snoc2]
            refine NotAfterClose.snoc (NotAfterClose.snoc h.after _ (fun j y e => by cases e)) _ ?_
            intro j y e hx
            cases e
            simp at hx
            exact hnc hx
          · rw [snoc2]
            exact ClosedOnce.snoc (ClosedOnce.snoc h.once _ (fun y e => by cases e)) _
              (fun y e => by cases e)
        · refine h.calm h.run (fun y => ?_) rfl
            (.inr ⟨_, rfl, fun _ => by simp, fun _ _ => by simp⟩)
          have := usersCount_set w.users i u ⟨u.held, .out⟩ y hu
          simp only [owned, poolCount, userCount, pcCount, hpc] at *; omega
      · next x hpc =>
        refine h.calm ((pushHead_fields w.p x).2.2.2.trans h.run) (fun y => ?_) rfl (.inl rfl)
        have := usersCount_set w.users i u ⟨u.held, .out⟩ y hu
        have := pushHead_count w.p x y
        simp only [owned, userCount, pcCount, hpc] at *; omega
    · exact h hc

theorem DeadInv.start {max : Int} {hasNew : Bool} {p : LIFO} {n : Nat}
    (h : init (declared max hasNew) = some p) : DeadInv (World.start p n) := by
  intro _
  obtain ⟨-, rfl⟩ := init_eq h
  refine ⟨?_, ?_, ?_, rfl⟩
  · intro x hx; simp [World.start] at hx
  · intro pre mid post i x he; simp [World.start] at he
  · intro pre mid post x he; simp [World.start] at he

theorem Reaches.dead {max : Int} {hasNew : Bool} {n : Nat} {as : List Action} {w : World}
    (h : Reaches max hasNew n as w) : DeadInv w := by
  obtain ⟨p, hp, rfl⟩ := h
  exact (run_induct (P := fun w => Inv w ∧ DeadInv w) ⟨Inv.start hp, DeadInv.start hp⟩
    (fun w a hw => ⟨hw.1.step a, hw.2.step hw.1 a⟩) as).2

end Memar.Pool
