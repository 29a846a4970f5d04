import Verif.Pool.Spec

namespace Memar.Pool

/-! ## Counting who owns an item -/

def optCount (o : Option Nat) (x : Nat) : Nat := if o = some x then 1 else 0

def pcCount (pc : Pc) (x : Nat) : Nat :=
  match pc with
  | .putPush o => optCount o x
  | _ => 0

def userCount (u : User) (x : Nat) : Nat := u.held.count x + pcCount u.pc x

def usersCount (l : List User) (x : Nat) : Nat := (l.map (userCount · x)).sum

def poolCount (p : LIFO) (x : Nat) : Nat :=
  optCount p.hotItem x + p.idleItems.count (some x) + p.victimItems.count (some x)

def cleanCount (c : CleanPc) (x : Nat) : Nat :=
  match c with
  | .sub vi => vi.count (some x)
  | .close vi => vi.count (some x)
  | _ => 0

def owned (w : World) (x : Nat) : Nat :=
  poolCount w.p x + usersCount w.users x + cleanCount w.cleaner x

theorem sum_set (l : List User) (f : User → Nat) (i : Nat) (u v : User) (h : l[i]? = some u) :
    ((l.set i v).map f).sum + f u = (l.map f).sum + f v := by
  induction l generalizing i with
  | nil => simp at h
  | cons a t ih =>
    cases i with
    | zero =>
      simp at h; subst h
      simp [List.set]; omega
    | succ i =>
      simp at h
      have := ih i h
      simp only [List.set, List.map_cons, List.sum_cons] at this ⊢; omega

theorem usersCount_set (l : List User) (i : Nat) (u v : User) (x : Nat) (h : l[i]? = some u) :
    usersCount (l.set i v) x + userCount u x = usersCount l x + userCount v x :=
  sum_set l (userCount · x) i u v h

theorem userCount_le (l : List User) (i : Nat) (u : User) (x : Nat) (h : l[i]? = some u) :
    userCount u x ≤ usersCount l x := by
  induction l generalizing i with
  | nil => simp at h
  | cons a t ih =>
    cases i with
    | zero => simp at h; subst h; simp [usersCount]
    | succ i =>
      simp at h
      have := ih i h
      simp only [usersCount, List.map_cons, List.sum_cons] at this ⊢; omega

theorem count_dropLast {l : List (Option Nat)} {y : Option Nat} (h : l.getLast? = some y)
    (x : Nat) : l.count (some x) = l.dropLast.count (some x) + optCount y x := by
  obtain ⟨t, rfl⟩ : ∃ t, l = t ++ [y] := by
    refine ⟨l.dropLast, ?_⟩
    have hne : l ≠ [] := by intro e; simp [e] at h
    have := List.dropLast_concat_getLast hne
    rw [List.getLast?_eq_some_getLast hne] at h
    injection h with h
    rw [h] at this; exact this.symm
  simp [List.count_append, optCount, List.count_singleton]

theorem popHead_count (p : LIFO) (x : Nat) :
    poolCount p x = poolCount (popHead p).2 x + optCount (popHead p).1 x := by
  unfold popHead
  split
  · next y hy => simp [poolCount, hy, optCount]; omega
  · next hy =>
    split
    · next y hl => have := count_dropLast hl x; simp only [poolCount]; omega
    · split
      · next y hl => have := count_dropLast hl x; simp only [poolCount]; omega
      · simp [optCount]

theorem pushHead_count (p : LIFO) (o : Option Nat) (x : Nat) :
    poolCount (pushHead p o) x = poolCount p x + optCount o x := by
  unfold pushHead
  split
  · next hy => simp [poolCount, hy, optCount]; omega
  · simp [poolCount, List.count_append, optCount, List.count_singleton]; omega

theorem freshIdle_count (p : LIFO) (x : Nat) : (freshIdle p).count (some x) = 0 := by
  simp [freshIdle, List.count_replicate]

theorem popHead_fields (p : LIFO) : (popHead p).2.maxItems = p.maxItems ∧
    (popHead p).2.hasNew = p.hasNew ∧ (popHead p).2.itemsCount = p.itemsCount ∧
    (popHead p).2.state = p.state := by
  unfold popHead; split <;> (try split) <;> (try split) <;> simp

theorem pushHead_fields (p : LIFO) (o : Option Nat) : (pushHead p o).maxItems = p.maxItems ∧
    (pushHead p o).hasNew = p.hasNew ∧ (pushHead p o).itemsCount = p.itemsCount ∧
    (pushHead p o).state = p.state := by
  unfold pushHead; split <;> simp

theorem userCount_take (held : List Nat) (o : Option Nat) (x : Nat) :
    userCount ⟨take held o, .out⟩ x = held.count x + optCount o x := by
  cases o <;> simp [take, userCount, pcCount, optCount, List.count_cons]

theorem count_give {held : List Nat} {o : Option Nat} (h : ∀ y, o = some y → y ∈ held)
    (x : Nat) : (give held o).count x + optCount o x = held.count x := by
  cases o with
  | none => simp [give, optCount]
  | some y =>
    have hm := h y rfl
    simp only [give, optCount, List.count_erase]
    by_cases e : y = x
    · subst e; have := List.count_pos_iff.2 hm; simp; omega
    · simp [e, fun h : x = y => e h.symm]

/-! ## Splitting a log at its end -/

theorem split_snoc {α} {log pre mid : List α} {e g : α} (h : log ++ [e] = pre ++ g :: mid) :
    (mid = [] ∧ g = e ∧ pre = log) ∨ ∃ mid', mid = mid' ++ [e] ∧ log = pre ++ g :: mid' := by
  rcases List.eq_nil_or_concat mid with rfl | ⟨m, a, rfl⟩
  · left
    have h' := List.append_inj' h (by simp)
    simp at h'
    exact ⟨rfl, h'.2.symm, h'.1.symm⟩
  · right
    have : log ++ [e] = (pre ++ g :: m) ++ [a] := by rw [h]; simp
    have h' := List.append_inj' this (by simp)
    simp at h'
    exact ⟨m, by simp [h'.2], h'.1⟩

/-! ## The ownership invariant -/

structure Inv (w : World) : Prop where
  own : ∀ x, owned w x ≤ 1
  fresh : ∀ x, w.next ≤ x → owned w x = 0
  held : ∀ i x pre mid, w.log = pre ++ .got i (some x) :: mid → .gave i (some x) ∉ mid →
    ∃ u, w.users[i]? = some u ∧ x ∈ u.held
  excl : Exclusive w.log
  cre : ∀ x, .created x ∈ w.log ↔ x < w.next
  src : Sourced w.log

/-- Events that hand out nothing. -/
def Quiet (e : Event) : Prop :=
  (∀ i x, e ≠ .got i (some x)) ∧ (∀ x, e ≠ .created x)

theorem excl_snoc_quiet {log : List Event} {e : Event} (hq : Quiet e) (h : Exclusive log) :
    Exclusive (log ++ [e]) := by
  intro pre mid post i j x he
  have he' : log ++ [e] = (pre ++ .got i (some x) :: mid) ++ .got j (some x) :: post := by
    rw [he]; simp
  rcases split_snoc he' with ⟨-, hg, -⟩ | ⟨p', hp', hlog⟩
  · exact absurd hg.symm (hq.1 j x)
  · exact h pre mid p' i j x (by rw [hlog]; simp)

theorem src_snoc_quiet {log : List Event} {e : Event} (hq : Quiet e) (h : Sourced log) :
    Sourced (log ++ [e]) := by
  intro pre post i x he
  rcases split_snoc he with ⟨-, hg, -⟩ | ⟨p', hp', hlog⟩
  · exact absurd hg.symm (hq.1 i x)
  · exact h pre p' i x hlog

/-- A step that hands out nothing. -/
theorem Inv.quiet {w w' : World} (h : Inv w) (e : Event) (hq : Quiet e)
    (hlog : w'.log = w.log ++ [e]) (hnext : w'.next = w.next)
    (hown : ∀ x, owned w' x ≤ owned w x)
    (hheld : ∀ (i : Nat) (x : Nat) (u : User), w.users[i]? = some u → x ∈ u.held → e ≠ .gave i (some x) →
      ∃ u' : User, w'.users[i]? = some u' ∧ x ∈ u'.held) : Inv w' := by
  refine ⟨fun x => Nat.le_trans (hown x) (h.own x), fun x hx => ?_, ?_, ?_, ?_, ?_⟩
  · have := h.fresh x (by omega); have := hown x; omega
  · intro i x pre mid he hm
    rw [hlog] at he
    rcases split_snoc he with ⟨-, hg, -⟩ | ⟨m', hm', hl⟩
    · exact absurd hg.symm (hq.1 i x)
    · subst hm'
      simp at hm
      obtain ⟨u, hu, hx⟩ := h.held i x pre m' hl hm.1
      exact hheld i x u hu hx (fun e => hm.2 e.symm)
  · rw [hlog]; exact excl_snoc_quiet hq h.excl
  · intro x
    rw [hlog, hnext, ← h.cre x]
    simp
    intro e; exact absurd e.symm (hq.2 x)
  · rw [hlog]; exact src_snoc_quiet hq h.src

/-- A step that is not observable. -/
theorem Inv.silent {w w' : World} (h : Inv w)
    (hlog : w'.log = w.log) (hnext : w'.next = w.next)
    (hown : ∀ x, owned w' x ≤ owned w x)
    (hheld : ∀ (i : Nat) (x : Nat) (u : User), w.users[i]? = some u → x ∈ u.held →
      ∃ u' : User, w'.users[i]? = some u' ∧ x ∈ u'.held) : Inv w' := by
  refine ⟨fun x => Nat.le_trans (hown x) (h.own x), fun x hx => ?_, ?_, ?_, ?_, ?_⟩
  · have := h.fresh x (by omega); have := hown x; omega
  · intro i x pre mid he hm
    rw [hlog] at he
    obtain ⟨u, hu, hx⟩ := h.held i x pre mid he hm
    exact hheld i x u hu hx
  · rw [hlog]; exact h.excl
  · intro x; rw [hlog, hnext, ← h.cre x]
  · rw [hlog]; exact h.src

theorem mem_users_count {w : World} {i : Nat} {u : User} {x : Nat} (h : w.users[i]? = some u)
    (hx : x ∈ u.held) : 1 ≤ usersCount w.users x := by
  have := userCount_le w.users i u x h
  have h2 := List.count_pos_iff.2 hx
  simp only [userCount] at this
  omega

theorem held_set {users : List User} {i : Nat} {u v : User} (hu : users[i]? = some u)
    (hv : ∀ x, x ∈ u.held → x ∈ v.held) :
    ∀ (j : Nat) (x : Nat) (u' : User), users[j]? = some u' → x ∈ u'.held →
      ∃ v' : User, (users.set i v)[j]? = some v' ∧ x ∈ v'.held := by
  intro j x u' hj hx
  by_cases e : i = j
  · subst e
    rw [hu] at hj; cases hj
    refine ⟨v, ?_, hv x hx⟩
    have := (List.getElem?_eq_some_iff.1 hu).1
    simp [this]
  · exact ⟨u', by rw [List.getElem?_set_ne e]; exact hj, hx⟩

/-- Popping an item out of the pool and handing it to user `i`. -/
theorem Inv.handOut {w w' : World} (h : Inv w) {i : Nat} {u : User} {x : Nat}
    (hu : w.users[i]? = some u)
    (hlog : w'.log = w.log ++ [.got i (some x)]) (hnext : w'.next = w.next)
    (husers : w'.users = w.users.set i ⟨x :: u.held, .out⟩)
    (hown : ∀ y, owned w' y ≤ owned w y)
    (hx : 1 ≤ poolCount w.p x) : Inv w' := by
  have hlt : x < w.next := by
    rcases Nat.lt_or_ge x w.next with hn | hn
    · exact hn
    · have := h.fresh x hn
      simp only [owned] at this; omega
  have hnot : ∀ (j : Nat) (v : User), w.users[j]? = some v → x ∉ v.held := by
    intro j v hj hm
    have h1 := mem_users_count hj hm
    have h2 := h.own x
    simp only [owned] at h2; omega
  refine ⟨fun y => Nat.le_trans (hown y) (h.own y), fun y hy => ?_, ?_, ?_, ?_, ?_⟩
  · have := h.fresh y (by omega); have := hown y; omega
  · intro j y pre mid he hm
    rw [hlog] at he
    rcases split_snoc he with ⟨-, hg, -⟩ | ⟨m', hm', hl⟩
    · cases hg
      refine ⟨⟨x :: u.held, .out⟩, ?_, by simp⟩
      have := (List.getElem?_eq_some_iff.1 hu).1
      rw [husers]; simp [this]
    · subst hm'
      simp at hm
      obtain ⟨v, hv, hy⟩ := h.held j y pre m' hl hm
      rw [husers]
      exact held_set hu (fun z hz => by simp [hz]) j y v hv hy
  · rw [hlog]
    intro pre mid post a b y he
    have he' : w.log ++ [.got i (some x)]
        = (pre ++ .got a (some y) :: mid) ++ .got b (some y) :: post := by rw [he]; simp
    rcases split_snoc he' with ⟨-, hg, hpre⟩ | ⟨p', hp', hl⟩
    · cases hg
      apply Decidable.byContradiction
      intro hng
      obtain ⟨v, hv, hy⟩ := h.held a x pre mid hpre.symm hng
      exact hnot a v hv hy
    · exact h.excl pre mid p' a b y (by rw [hl]; simp)
  · intro y; rw [hlog, hnext, ← h.cre y]; simp
  · rw [hlog]
    intro pre post a y he
    rcases split_snoc he with ⟨-, hg, hpre⟩ | ⟨p', hp', hl⟩
    · cases hg; rw [hpre]; exact (h.cre x).2 hlt
    · exact h.src pre p' a y hl

/-- Creating an item and handing it to user `i`. -/
theorem Inv.create {w w' : World} (h : Inv w) {i : Nat} {u : User}
    (hu : w.users[i]? = some u)
    (hlog : w'.log = w.log ++ [.created w.next, .got i (some w.next)])
    (hnext : w'.next = w.next + 1)
    (husers : w'.users = w.users.set i ⟨w.next :: u.held, .out⟩)
    (hown : ∀ y, owned w' y ≤ owned w y + optCount (some w.next) y) : Inv w' := by
  have h0 := h.fresh w.next (Nat.le_refl _)
  have hnot : ∀ (j : Nat) (v : User), w.users[j]? = some v → w.next ∉ v.held := by
    intro j v hj hm
    have h1 := mem_users_count hj hm
    simp only [owned] at h0; omega
  have hlog' : w'.log = (w.log ++ [.created w.next]) ++ [.got i (some w.next)] := by
    rw [hlog]; simp
  refine ⟨fun y => ?_, fun y hy => ?_, ?_, ?_, ?_, ?_⟩
  · have h1 := hown y
    by_cases e : w.next = y
    · subst e; simp [optCount] at h1; omega
    · have := h.own y; simp [optCount, e] at h1; omega
  · have h1 := hown y
    have h2 := h.fresh y (by omega)
    have e : ¬ w.next = y := by omega
    simp [optCount, e] at h1; omega
  · intro j y pre mid he hm
    rw [hlog'] at he
    rcases split_snoc he with ⟨-, hg, -⟩ | ⟨m', hm', hl⟩
    · cases hg
      refine ⟨⟨w.next :: u.held, .out⟩, ?_, by simp⟩
      have := (List.getElem?_eq_some_iff.1 hu).1
      rw [husers]; simp [this]
    · subst hm'
      simp at hm
      rcases split_snoc hl with ⟨-, hg, -⟩ | ⟨m'', hm'', hl'⟩
      · cases hg
      · subst hm''
        simp at hm
        obtain ⟨v, hv, hy⟩ := h.held j y pre m'' hl' hm
        rw [husers]
        exact held_set hu (fun z hz => by simp [hz]) j y v hv hy
  · rw [hlog']
    intro pre mid post a b y he
    have he' : (w.log ++ [.created w.next]) ++ [.got i (some w.next)]
        = (pre ++ .got a (some y) :: mid) ++ .got b (some y) :: post := by rw [he]; simp
    rcases split_snoc he' with ⟨-, hg, hpre⟩ | ⟨p', hp', hl⟩
    · cases hg
      rcases split_snoc hpre.symm with ⟨-, hg, -⟩ | ⟨m', hm', hl'⟩
      · cases hg
      · subst hm'
        apply Decidable.byContradiction
        intro hng
        simp at hng
        obtain ⟨v, hv, hy⟩ := h.held a w.next pre m' hl' hng
        exact hnot a v hv hy
    · rcases split_snoc hl with ⟨-, hg, -⟩ | ⟨p'', hp'', hl'⟩
      · cases hg
      · exact h.excl pre mid p'' a b y (by rw [hl']; simp)
  · intro y; rw [hlog, hnext]
    have := h.cre y
    simp only [List.mem_append, this, List.mem_cons, Event.created.injEq, List.not_mem_nil,
      or_false, reduceCtorEq]
    exact Nat.lt_succ_iff_lt_or_eq.symm
  · rw [hlog']
    intro pre post a y he
    rcases split_snoc he with ⟨-, hg, hpre⟩ | ⟨p', hp', hl⟩
    · cases hg; rw [hpre]; simp
    · rcases split_snoc hl with ⟨-, hg, -⟩ | ⟨p'', hp'', hl'⟩
      · cases hg
      · exact h.src pre p'' a y hl'

theorem Inv.closeList {w : World} (h : Inv w) (l : List (Option Nat)) :
    Inv { w with log := w.log ++ closeAll l } := by
  unfold closeAll
  generalize l.filter Option.isSome = m
  induction m generalizing w with
  | nil => simpa using h
  | cons a t ih =>
    have h1 : Inv { w with log := w.log ++ [.closed a] } :=
      h.quiet (.closed a) ⟨fun _ _ => by simp, fun _ => by simp⟩ rfl rfl (fun _ => Nat.le_refl _)
        (fun i x u hu hx _ => ⟨u, hu, hx⟩)
    have := ih h1
    simpa using this

theorem Inv.startPut {w : World} (h : Inv w) {i : Nat} {u : User} (hu : w.users[i]? = some u)
    (hpc : u.pc = .out) {x : Option Nat} (hx : ∀ y, x = some y → y ∈ u.held) :
    Inv (startPut w i u x) := by
  have hheld : ∀ (pc : Pc) (j : Nat) (y : Nat) (v : User), w.users[j]? = some v → y ∈ v.held →
      Event.gave i x ≠ .gave j (some y) →
      ∃ v', (w.users.set i ⟨give u.held x, pc⟩)[j]? = some v' ∧ y ∈ v'.held := by
    intro pc j y v hj hy hne
    by_cases e : i = j
    · subst e
      rw [hu] at hj; cases hj
      refine ⟨⟨give u.held x, pc⟩, ?_, ?_⟩
      · have := (List.getElem?_eq_some_iff.1 hu).1
        simp [this]
      · cases x with
        | none => exact hy
        | some z =>
          have : y ≠ z := by rintro rfl; exact hne rfl
          exact (List.mem_erase_of_ne this).2 hy
    · exact ⟨v, by rw [List.getElem?_set_ne e]; exact hj, hy⟩
  have hc := fun y => count_give hx y
  unfold Pool.startPut
  split
  · have h1 : Inv { w with users := w.users.set i ⟨give u.held x, .out⟩
                           log := w.log ++ [.gave i x] } := by
      refine h.quiet (.gave i x) ⟨fun _ _ => by simp, fun _ => by simp⟩ rfl rfl ?_ (hheld .out)
      intro y
      have := usersCount_set w.users i u ⟨give u.held x, .out⟩ y hu
      have := hc y
      simp only [owned, userCount, pcCount, hpc] at *; omega
    have h2 := h1.quiet (w' := { w with users := w.users.set i ⟨give u.held x, .out⟩
                                        log := w.log ++ [.gave i x, .closed x] })
      (.closed x) ⟨fun _ _ => by simp, fun _ => by simp⟩ (by simp) rfl
      (fun _ => Nat.le_refl _) (fun j y v hj hy _ => ⟨v, hj, hy⟩)
    exact h2
  · refine h.quiet (.gave i x) ⟨fun _ _ => by simp, fun _ => by simp⟩ rfl rfl ?_ (hheld _)
    intro y
    have := usersCount_set w.users i u ⟨give u.held x, .putPush x⟩ y hu
    have := hc y
    simp only [owned, userCount, pcCount, hpc] at *; omega

theorem Inv.userStep {w : World} (h : Inv w) {i : Nat} {u : User} (hu : w.users[i]? = some u) :
    Inv (userStep w i u) := by
  unfold Pool.userStep
  split
  · exact h
  · next hpc =>
    have hc := popHead_count w.p
    split
    · next x p' hp =>
      rw [hp] at hc
      refine h.handOut (x := x) hu rfl rfl (by simp [take]) ?_ ?_
      · intro y
        have := usersCount_set w.users i u ⟨take u.held (some x), .out⟩ y hu
        have h2 := userCount_take u.held (some x) y
        have := hc y
        have h3 : userCount u y = u.held.count y := by simp [userCount, hpc, pcCount]
        simp only [owned] at *; omega
      · have := hc x; simp [optCount] at this; omega
    · next p' hp =>
      rw [hp] at hc
      have key : ∀ pc, pcCount pc = (fun _ => 0) → ∀ y, poolCount p' y + usersCount (w.users.set i ⟨u.held, pc⟩) y
          ≤ poolCount w.p y + usersCount w.users y := by
        intro pc hpc' y
        have := usersCount_set w.users i u ⟨u.held, pc⟩ y hu
        have := hc y
        simp only [userCount, hpc, hpc'] at *
        simp only [pcCount] at *; omega
      split
      · refine h.silent rfl rfl ?_ (held_set hu (fun _ hx => hx))
        intro y; have := key .getAdd (by funext; rfl) y; simp only [owned] at *; omega
      · refine h.quiet (.got i none) ⟨fun _ _ => by simp, fun _ => by simp⟩ rfl rfl ?_
          (fun j x v hj hx _ => held_set (v := ⟨u.held, .out⟩) hu (fun _ hx => hx) j x v hj hx)
        intro y; have := key .out (by funext; rfl) y; simp only [owned] at *; omega
  · next hpc =>
    refine h.silent rfl rfl ?_ (held_set hu (fun _ hx => hx))
    intro y
    have := usersCount_set w.users i u ⟨u.held, .getNew (w.p.itemsCount + 1)⟩ y hu
    simp only [owned, poolCount, userCount, pcCount, hpc] at *; omega
  · next ic hpc =>
    split
    · refine h.create hu rfl rfl (by simp [take]) ?_
      intro y
      have := usersCount_set w.users i u ⟨take u.held (some w.next), .out⟩ y hu
      have h2 := userCount_take u.held (some w.next) y
      have h3 : userCount u y = u.held.count y := by simp [userCount, hpc, pcCount]
      simp only [owned] at *; omega
    · refine h.quiet (.got i none) ⟨fun _ _ => by simp, fun _ => by simp⟩ rfl rfl ?_
          (fun j x v hj hx _ => held_set (v := ⟨u.held, .out⟩) hu (fun _ hx => hx) j x v hj hx)
      intro y
      have := usersCount_set w.users i u ⟨u.held, .out⟩ y hu
      simp only [owned, poolCount, userCount, pcCount, hpc] at *; omega
  · next x hpc =>
    refine h.silent rfl rfl ?_ (held_set hu (fun _ hx => hx))
    intro y
    have := usersCount_set w.users i u ⟨u.held, .out⟩ y hu
    have := pushHead_count w.p x y
    simp only [owned, userCount, pcCount, hpc] at *; omega

theorem Inv.cleanStep {w : World} (h : Inv w) : Inv (cleanStep w) := by
  have idh : ∀ (i : Nat) (x : Nat) (u : User), w.users[i]? = some u → x ∈ u.held →
      ∃ u', w.users[i]? = some u' ∧ x ∈ u'.held := fun i x u hu hx => ⟨u, hu, hx⟩
  unfold Pool.cleanStep
  split
  · next hc =>
    split
    · exact h.silent rfl rfl (fun y => by simp [owned, hc, cleanCount]) idh
    · exact h.silent rfl rfl (fun y => by simp [owned, hc, cleanCount]) idh
  · next hc =>
    refine h.silent rfl rfl (fun y => ?_) idh
    have := freshIdle_count w.p y
    simp only [owned, hc, cleanCount, poolCount] at *
    omega
  · next vi hc =>
    exact h.silent rfl rfl (fun y => by simp [owned, hc, cleanCount, poolCount]) idh
  · next hc =>
    exact h.silent rfl rfl (fun y => by simp [owned, hc, cleanCount]) idh
  · next x vi hc =>
    refine h.quiet (.closed x) ⟨fun _ _ => by simp, fun _ => by simp⟩ rfl rfl (fun y => ?_)
      (fun i y u hu hy _ => ⟨u, hu, hy⟩)
    simp [owned, hc, cleanCount, List.count_cons]
  · exact h

theorem Inv.closeStep {w : World} (h : Inv w) : Inv (closeStep w) := by
  have idh : ∀ (i : Nat) (x : Nat) (u : User), w.users[i]? = some u → x ∈ u.held →
      ∃ u', w.users[i]? = some u' ∧ x ∈ u'.held := fun i x u hu hx => ⟨u, hu, hx⟩
  unfold Pool.closeStep
  split
  · split
    · exact h.silent rfl rfl (fun y => by simp [owned, poolCount]) idh
    · exact h
  · have h1 := h.closeList w.p.idleItems
    exact h1.silent rfl rfl (fun y => by simp [owned]) idh
  · exact h.silent rfl rfl (fun y => by simp [owned, poolCount]) idh
  · exact h

theorem Inv.step {w : World} (h : Inv w) (a : Action) : Inv (step w a) := by
  cases a with
  | get i =>
    unfold Pool.step
    dsimp only
    split
    · next u hu =>
      split
      · next hpc =>
        unfold startGet
        split
        · exact h.quiet (.got i none) ⟨fun _ _ => by simp, fun _ => by simp⟩ rfl rfl
            (fun _ => Nat.le_refl _) (fun j x v hj hx _ => ⟨v, hj, hx⟩)
        · refine h.silent rfl rfl ?_ (held_set hu (fun _ hx => hx))
          intro y
          have := usersCount_set w.users i u ⟨u.held, .getPop⟩ y hu
          simp only [owned, poolCount, userCount, pcCount, hpc] at *; omega
      · exact h
    · exact h
  | put i x =>
    unfold Pool.step
    dsimp only
    split
    · next u hu =>
      split
      · next hc => exact h.startPut hu hc.1 hc.2
      · exact h
    · exact h
  | step i =>
    unfold Pool.step
    dsimp only
    split
    · next u hu => exact h.userStep hu
    · exact h
  | clean => exact h.cleanStep
  | close => exact h.closeStep

theorem usersCount_start (n : Nat) (x : Nat) :
    usersCount (List.replicate n ⟨[], .out⟩) x = 0 := by
  induction n with
  | zero => rfl
  | succ n ih =>
    simp only [usersCount, List.replicate_succ, List.map_cons, List.sum_cons] at *
    simp [ih, userCount, pcCount]

theorem init_eq {max : Int} {hasNew : Bool} {p : LIFO} (h : init (declared max hasNew) = some p) :
    0 ≤ max.tdiv 4 ∧
    p = ⟨max, hasNew, 0, none, List.replicate (max.tdiv 4).toNat none, [], .running⟩ := by
  unfold init at h
  rw [if_neg (by simp [declared])] at h
  split at h
  · cases h
  · next hn => cases h; exact ⟨by simpa [declared] using hn, rfl⟩

theorem owned_start {max : Int} {hasNew : Bool} {p : LIFO} {n : Nat}
    (h : init (declared max hasNew) = some p) (x : Nat) : owned (World.start p n) x = 0 := by
  obtain ⟨-, rfl⟩ := init_eq h
  simp [owned, World.start, usersCount_start, poolCount, optCount, cleanCount,
    List.count_replicate]

theorem Inv.start {max : Int} {hasNew : Bool} {p : LIFO} {n : Nat}
    (h : init (declared max hasNew) = some p) : Inv (World.start p n) := by
  have h0 := owned_start (n := n) h
  refine ⟨fun x => by rw [h0]; omega, fun x _ => h0 x, ?_, ?_, ?_, ?_⟩
  · intro i x pre mid he _; simp [World.start] at he
  · intro pre mid post i j x he; simp [World.start] at he
  · intro x; simp [World.start]
  · intro pre post i x he; simp [World.start] at he

theorem run_induct {P : World → Prop} {w : World} (h0 : P w) (hs : ∀ w a, P w → P (step w a))
    (as : List Action) : P (run w as) := by
  induction as generalizing w with
  | nil => exact h0
  | cons a t ih => exact ih (hs w a h0)

theorem Reaches.inv {max : Int} {hasNew : Bool} {n : Nat} {as : List Action} {w : World}
    (h : Reaches max hasNew n as w) : Inv w := by
  obtain ⟨p, hp, rfl⟩ := h
  exact run_induct (Inv.start hp) (fun w a hw => hw.step a) as

end Memar.Pool
