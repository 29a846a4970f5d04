import Verif.Pool.Props

/-!
# Starting, closing and measuring a pool (C94, C95)

`Init` and `Close` swap the state before they look at the old one, so a refused call (a panic, which
a caller may recover from) still changes the pool.
-/

namespace Memar.Pool

/-- pool/lifo.go:38-48 `Init`: the pool afterwards, and whether the call panicked. -/
def initCall (p : LIFO) : LIFO × Bool :=
  /- line 39 -/
  let p1 := { p with state := .running }
  if p.state ≠ .unset then (p1, true)
  /- line 46: `make` with a negative length panics -/
  else if p.maxItems.tdiv 4 < 0 then (p1, true)
  else ({ p1 with idleItems := freshIdle p }, false)

/-- pool/lifo.go:82-98 `Close`, undisturbed: the pool afterwards, the items given to `CloseFunc`,
and whether the call panicked. -/
def closeOnce (p : LIFO) : LIFO × List (Option Nat) × Bool :=
  if p.state ≠ .running then ({ p with state := .stopping }, [], true)
  else ({ p with state := .stopped }, p.idleItems.filter Option.isSome, false)

/-- The items that are idle in the pool. -/
def idleNow (p : LIFO) : List Nat :=
  p.hotItem.toList ++ p.idleItems.filterMap id ++ p.victimItems.filterMap id

/-- The initialisation used by the schedules is the call that does not panic. -/
theorem initCall_eq (p q : LIFO) : initCall p = (q, false) ↔ init p = some q := by
  unfold initCall init
  split
  · simp
  · split <;> simp

theorem tdiv4_neg (m : Int) : m.tdiv 4 < 0 ↔ m ≤ -4 := by
  rcases Int.le_total 0 m with h | h
  · rw [Int.tdiv_eq_ediv_of_nonneg h]; omega
  · have e : m = -(-m) := by omega
    rw [e, Int.neg_tdiv, Int.tdiv_eq_ediv_of_nonneg (by omega)]; omega

/-- C94: `Init` succeeds exactly on a pool that was never started, with a limit above -4; the pool
then runs and holds nothing. -/
theorem C94_init_exact (p : LIFO) :
    ((initCall p).2 = false ↔ p.state = .unset ∧ -4 < p.maxItems) ∧
    ((initCall p).2 = false → (initCall p).1.state = .running ∧
      (initCall p).1.idleItems.filterMap id = [] ∧ (initCall p).1.hotItem = p.hotItem ∧
      (initCall p).1.maxItems = p.maxItems ∧ (initCall p).1.itemsCount = p.itemsCount) := by
  have hdiv : p.maxItems.tdiv 4 < 0 ↔ p.maxItems ≤ -4 := tdiv4_neg _
  unfold initCall
  split
  · rename_i h; simp only [Bool.true_eq_false, false_iff, false_implies, and_true]; exact fun c => h c.1
  · rename_i h
    have h' : p.state = .unset := Decidable.not_not.mp h
    split
    · rename_i h2
      simp only [Bool.true_eq_false, false_iff, false_implies, and_true]
      rw [hdiv] at h2; omega
    · rename_i h2
      rw [hdiv] at h2
      refine ⟨⟨fun _ => ⟨h', by omega⟩, fun _ => rfl⟩, fun _ => ⟨rfl, ?_, rfl, rfl, rfl⟩⟩
      simp [freshIdle]

/-- C94: `Close` succeeds exactly on a running pool. -/
theorem C94_close_exact (p : LIFO) :
    ((closeOnce p).2.2 = false ↔ p.state = .running) ∧
    ((closeOnce p).2.2 = false → (closeOnce p).1.state = .stopped) := by
  unfold closeOnce
  split
  · rename_i h; simp [h]
  · rename_i h; simp [Decidable.not_not.mp h]

/-- The full property: a refused `Init` or `Close` leaves the pool as it was. -/
def RefusalIsInert : Prop :=
  ∀ p : LIFO, ((initCall p).2 = true → (initCall p).1 = p) ∧
    ((closeOnce p).2.2 = true → (closeOnce p).1 = p)

/-- C211 is violated: a second `Init` of a closed pool panics, yet the pool runs again and hands out
what was in it; what `Close` closed is handed out afterwards. -/
theorem C211_refused_init_revives_violated (p : LIFO) (h : p.state = .stopped) :
    (initCall p).2 = true ∧ isStop (initCall p).1 = false ∧
    (initCall p).1.idleItems = p.idleItems ∧ (initCall p).1 ≠ p := by
  have : initCall p = ({ p with state := .running }, true) := by
    unfold initCall; simp [h]
  rw [this]
  refine ⟨rfl, rfl, rfl, ?_⟩
  intro e
  have := congrArg LIFO.state e
  rw [h] at this
  cases this

/-- C211 is violated: `Close` of a pool that was never started panics, and afterwards the pool can
never be started. -/
theorem C211_refused_close_kills_violated (p : LIFO) (h : p.state = .unset) :
    (closeOnce p).2.2 = true ∧ isStop (closeOnce p).1 = true ∧
    (initCall (closeOnce p).1).2 = true := by
  unfold closeOnce
  simp [h, isStop, initCall]

/-- C211 is violated: a refused call does not leave the pool as it was. -/
theorem C211_refusal_violated : ¬ RefusalIsInert := by
  intro h
  exact (C211_refused_init_revives_violated ⟨4, true, 0, none, [], [], .stopped⟩ rfl).2.2.2
    ((h _).1 rfl)

/-- C211, what holds: refusing changes nothing but the state.
Missing: that the state is kept too (refuted: `C211_refused_init_revives_violated`,
`C211_refused_close_kills_violated`, `C211_refusal_violated`). -/
theorem C211_refusal_keeps_items_partial (p : LIFO) :
    ((initCall p).2 = true → { (initCall p).1 with state := p.state } = p) ∧
    ((closeOnce p).2.2 = true → { (closeOnce p).1 with state := p.state } = p) := by
  constructor
  · unfold initCall
    split
    · intro _; rfl
    · split
      · intro _; rfl
      · intro c; cases c
  · unfold closeOnce
    split
    · intro _; rfl
    · intro c; cases c

/-- A pool that was used and closed. -/
example : ∃ w, Reaches 4 true 1 (getCall 0 ++ getCall 0 ++ putCall 0 0 ++ putCall 0 1 ++ closeCall) w
    ∧ w.p.state = .stopped ∧ some 1 ∈ w.p.idleItems ∧ .closed (some 1) ∈ w.log :=
  ⟨_, ⟨four, four_init, rfl⟩, by decide +kernel, by decide +kernel, by decide +kernel⟩

/-! ## C95: `Len` -/

/-- The full property: `Len` is the number of idle items. -/
def LenExact (p : LIFO) : Prop := len p = (idleNow p).length

/-- C95 is violated: a pool that was just initialised is empty, but reports a quarter of its limit;
so it does for every limit of at least four. -/
theorem C95_len_of_empty_violated (m : Int) (hm : 4 ≤ m) (hasNew : Bool) :
    ∃ p, init (declared m hasNew) = some p ∧ idleNow p = [] ∧ (len p : Int) = m / 4 ∧
      ¬ LenExact p := by
  have h1 : ¬ m.tdiv 4 < 0 := by rw [tdiv4_neg]; omega
  have h2 : m.tdiv 4 = m / 4 := Int.tdiv_eq_ediv_of_nonneg (by omega)
  refine ⟨_, by simp only [init, declared, h1]; rfl, ?_, ?_, ?_⟩
  · simp [idleNow, freshIdle]
  · simp only [len, freshIdle, List.length_replicate, List.length_nil, h2]
    omega
  · simp only [LenExact, len, idleNow, freshIdle, List.length_replicate, List.length_nil]
    simp [h2]
    omega

/-- C95 is violated: returning an item to a pool with a free hot place does not change `Len`. -/
theorem C95_len_misses_hot_item_violated {w : World} {i : Nat} {u : User} {a : Nat}
    (hrun : w.p.state = .running) (hu : w.users[i]? = some u) (hpc : u.pc = .out)
    (ha : a ∈ u.held) (hot : w.p.hotItem = none) :
    len (run w (putCall i a)).p = len w.p ∧
    (idleNow (run w (putCall i a)).p).length = (idleNow w.p).length + 1 := by
  have hi : i < w.users.length := (List.getElem?_eq_some_iff.mp hu).1
  have e1 : step w (.put i (some a)) =
      { w with users := w.users.set i ⟨u.held.erase a, .putPush (some a)⟩
               log := w.log ++ [.gave i (some a)] } := by
    simp [step, startPut, give, hu, hpc, isStop, hrun, ha]
  simp only [run, putCall, List.foldl_cons, List.foldl_nil]
  rw [e1]
  simp only [step, List.getElem?_set_self hi, userStep, pushHead, hot]
  refine ⟨rfl, ?_⟩
  simp [idleNow, hot]

/-- C95, what holds: `Len` and the idle items differ exactly by the hot item and the nil slots.
Missing: that the two numbers are equal (refuted: `C95_len_of_empty_violated`,
`C95_len_misses_hot_item_violated`). -/
theorem C95_len_partial (p : LIFO) :
    len p + p.hotItem.toList.length =
      (idleNow p).length + p.idleItems.countP Option.isNone + p.victimItems.countP Option.isNone := by
  have key : ∀ l : List (Option Nat),
      l.length = (l.filterMap id).length + l.countP Option.isNone := by
    intro l
    induction l with
    | nil => rfl
    | cons a l ih => cases a <;> simp <;> omega
  simp only [len, idleNow, List.length_append]
  have h1 := key p.idleItems
  have h2 := key p.victimItems
  omega

example := C211_refused_init_revives_violated ⟨4, true, 1, some 3, [some 0, none], [], .stopped⟩ rfl
example := C211_refused_close_kills_violated (declared 4 true) rfl
example := C95_len_of_empty_violated 9 (by decide) true
example := C95_len_misses_hot_item_violated (w := run (World.start four 1) (getCall 0 ++ getCall 0)) (i := 0) (u := ⟨[1, 0], .out⟩) (a := 1)
  (by decide +kernel) (by decide +kernel) rfl (by decide) (by decide +kernel)

end Memar.Pool
