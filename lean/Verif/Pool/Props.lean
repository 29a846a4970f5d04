import Verif.Pool.SeqLemmas

/-!
# Properties of the object pool (C23, C24, C69, C70, C71)
-/

namespace Memar.Pool

/-- A pool of limit 4 after `Init`. -/
def four : LIFO := ⟨4, true, 0, none, [none], [], .running⟩

theorem four_init : init (declared 4 true) = some four := by rfl

/-- A busy concrete schedule: two users, items travelling, a clean-up in between. -/
def busy : List Action :=
  getCall 0 ++ getCall 1 ++ putCall 0 0 ++ getCall 1 ++ putCall 1 1 ++ putCall 1 0 ++
  cleanCall 0 ++ getCall 0 ++ cleanCall 1

/-- C23: whatever users, cleaner and closer do and however their steps interleave, an item is
handed out again only after the user that received it gave it back. -/
theorem C23_get_exclusive {max : Int} {hasNew : Bool} {n : Nat} {as : List Action} {w : World}
    (h : Reaches max hasNew n as w) : Exclusive w.log := h.inv.excl

/-- C23: everything handed out was created before. -/
theorem C23_get_created {max : Int} {hasNew : Bool} {n : Nat} {as : List Action} {w : World}
    (h : Reaches max hasNew n as w) : Sourced w.log := h.inv.src

/-- C23: no two users ever hold the same item, nor does anybody hold one twice. -/
theorem C23_held_once {max : Int} {hasNew : Bool} {n : Nat} {as : List Action} {w : World}
    (h : Reaches max hasNew n as w) {i j : Nat} {u v : User} {x : Nat}
    (hu : w.users[i]? = some u) (hv : w.users[j]? = some v) (hx : x ∈ u.held) (hy : x ∈ v.held) :
    i = j ∧ u.held.count x = 1 := by
  have own := h.inv.own x
  have h1 := List.count_pos_iff.2 hx
  have h2 := List.count_pos_iff.2 hy
  simp only [owned] at own
  have key : userCount u x ≤ usersCount w.users x := userCount_le _ i u x hu
  simp only [userCount] at key
  refine ⟨?_, by omega⟩
  apply Decidable.byContradiction
  intro hij
  have e := usersCount_set w.users i u ⟨[], .out⟩ x hu
  have hv' : (w.users.set i ⟨[], .out⟩)[j]? = some v := by
    rw [List.getElem?_set_ne hij]; exact hv
  have k2 := userCount_le _ j v x hv'
  simp only [userCount, pcCount, List.count_nil] at e k2
  omega

/-- C183: as long as `Close` has not been called, nothing that was closed is handed out, and no
item is closed twice.
Missing: calls in flight while the pool is closed (refuted: `C183_close_race_violated`,
`C183_close_race_any_violated`). -/
theorem C183_cleaned_up_stays_away_partial {max : Int} {hasNew : Bool} {n : Nat} {as : List Action}
    {w : World} (h : Reaches max hasNew n as w) (hc : w.closer = .notYet) :
    NotAfterClose w.log ∧ ClosedOnce w.log :=
  ⟨(h.dead hc).after, (h.dead hc).once⟩

/-- The busy schedule does hand out items several times, and closes one. -/
example : ∃ w, Reaches 4 true 2 busy w ∧ w.closer = .notYet ∧
    w.log = [.created 0, .got 0 (some 0), .created 1, .got 1 (some 1), .gave 0 (some 0),
      .got 1 (some 0), .gave 1 (some 1), .gave 1 (some 0), .got 0 (some 1), .closed (some 0)] :=
  ⟨_, ⟨four, four_init, rfl⟩, by decide +kernel, by decide +kernel⟩

/-- A `Get` that has checked the state, then a complete `Close`, then the rest of the `Get`. -/
def race : List Action :=
  getCall 0 ++ getCall 0 ++ putCall 0 0 ++ putCall 0 1 ++ getCall 0 ++ [.get 0] ++ closeCall ++
  [.step 0]

/-- C183 is violated at shutdown: a `Get` in flight during `Close` receives an item that `Close`
has just closed. -/
theorem C183_close_race_violated :
    ∃ w, Reaches 4 true 1 race w ∧ ¬ NotAfterClose w.log := by
  refine ⟨_, ⟨four, four_init, rfl⟩, ?_⟩
  have hl : (run (World.start four 1) race).log =
      [.created 0, .got 0 (some 0), .created 1, .got 0 (some 1), .gave 0 (some 0),
       .gave 0 (some 1), .got 0 (some 0)] ++ .closed (some 1) ::
       ([] ++ .got 0 (some 1) :: []) := by decide +kernel
  intro h
  exact h _ _ _ 0 1 hl

/-! ## The limit -/

/-- C24 is violated: for every limit of at least four there is a schedule, with nothing but one
user and the cleaner, after which more items than the limit exist and none has been closed. -/
theorem C24_limit_violated (m : Nat) (hm : 4 ≤ m) :
    ∃ as w, Reaches m true 1 as w ∧ w.cleaner = .sleep ∧ w.closer = .notYet ∧
      createdCount w.log = m + 1 ∧ closedCount w.log = 0 := by
  let k := m / 4
  have hk : ((m : Int).tdiv 4).toNat = k := by
    rw [Int.tdiv_eq_ediv_of_nonneg (by omega)]; omega
  let p : LIFO := ⟨m, true, 0, none, List.replicate k none, [], .running⟩
  have hp : init (declared m true) = some p := by
    have h0 : ¬ ((m : Int).tdiv 4 < 0) := by
      rw [Int.tdiv_eq_ediv_of_nonneg (by omega)]; omega
    unfold init
    rw [if_neg (by simp [declared]), if_neg (by simpa [declared] using h0)]
    simp only [freshIdle, declared, hk, p]
  have hfr : ∀ q : LIFO, q.maxItems = m → freshIdle q = List.replicate k none := by
    intro q hq; rw [freshIdle, hq, hk]
  let w0 := World.start p 1
  have r1 := clean_round w0 0 rfl rfl rfl
  let w1 := run w0 (cleanCall 0)
  have hw1 : w1 = ⟨⟨m, true, 0, none, List.replicate k none, List.replicate k none, .running⟩,
      [⟨[], .out⟩], .sleep, .notYet, 0, []⟩ := by
    show run w0 (cleanCall 0) = _
    rw [r1, hfr _ rfl]
    simp [w0, World.start, p]
  have r2 := clean_round w1 k (by rw [hw1]) (by rw [hw1]) (by rw [hw1])
  let w2 := run w1 (cleanCall k)
  have hw2 : w2 = ⟨⟨m, true, -k, none, List.replicate k none, List.replicate k none, .running⟩,
      [⟨[], .out⟩], .sleep, .notYet, 0, List.replicate k (.closed none)⟩ := by
    show run w1 (cleanCall k) = _
    rw [r2, hfr _ (by rw [hw1])]
    simp [hw1]
  have hb : Blank w2 (-k) := by
    rw [hw2]
    exact ⟨rfl, rfl, rfl, fun o ho => (List.mem_replicate.1 ho).2,
      fun o ho => (List.mem_replicate.1 ho).2, ⟨[], rfl⟩, rfl, rfl⟩
  have hmx : w2.p.maxItems = m := by rw [hw2]
  obtain ⟨w', e, b, c1, c2, c3⟩ := getCalls_blank hb (m + 1) (by rw [hmx]; omega)
  have hcnt := replicate_counts k []
  simp only [List.nil_append] at hcnt
  refine ⟨cleanCall 0 ++ cleanCall k ++ (List.replicate (m + 1) (getCall 0)).flatten, w',
    ⟨p, hp, ?_⟩, ?_, b.closer, ?_, ?_⟩
  · rw [e, run_append, run_append]
  · rw [c1, hw2]
  · rw [c2, hw2, hcnt.1]; simp [createdCount]
  · rw [c3, hw2, hcnt.2]; simp [closedCount]

/-- C24, what holds: until `Close` is called and whenever the cleaner is asleep, the number of
items that exist exceeds the limit by at most the number of times the cleaner closed nil.
Missing: the limit with the cleaner running and limits of four or more (refuted:
`C24_limit_violated`). -/
theorem C24_limit_up_to_nil_partial {max : Int} {hasNew : Bool} {n : Nat} {as : List Action}
    {w : World} (h : Reaches max hasNew n as w) (hpos : 0 ≤ max) (hc : w.closer = .notYet)
    (hs : w.cleaner = .sleep) :
    (createdCount w.log : Int) ≤ max + closedCount w.log + closedNilCount w.log := by
  have c := h.cnt hc
  have h1 := c.lim
  have h2 := h.max_eq
  rw [h2] at h1
  simp only [retired, hs, pending] at h1
  rw [c.cre]
  omega

/-- C24, what holds: without the cleaner and before `Close`, the limit holds for any number of
users and every interleaving of their calls.
Missing: the limit with the cleaner running and limits of four or more (refuted:
`C24_limit_violated`). -/
theorem C24_limit_without_cleaner_partial {max : Int} {hasNew : Bool} {n : Nat}
    {as : List Action} {w : World} (h : Reaches max hasNew n as w) (hpos : 0 ≤ max)
    (hcl : .clean ∉ as) (hc : w.closer = .notYet) : (createdCount w.log : Int) ≤ max := by
  have hd : w.closer = .notYet → w.cleaner = .sleep ∧ closedCount w.log = 0 ∧
      closedNilCount w.log = 0 := by
    obtain ⟨p, hp, rfl⟩ := h
    refine (run_induct_mem (P := fun w => CntInv w ∧ (w.closer = .notYet → w.cleaner = .sleep ∧
      closedCount w.log = 0 ∧ closedNilCount w.log = 0)) as ?_ ?_).2
    · exact ⟨CntInv.start hp, fun _ => ⟨rfl, rfl, rfl⟩⟩
    · rintro w a ha ⟨hI, hw⟩
      refine ⟨hI.step a, ?_⟩
      cases a with
      | get i =>
        unfold Pool.step startGet; dsimp only
        repeat' split
        all_goals intro hc; have := hw hc
        all_goals simp_all [closedCount_snoc, closedNilCount_snoc, isClosedItem, isClosedNil]
      | put i x =>
        unfold Pool.step startPut; dsimp only
        split
        · split
          · split
            · next hs => intro hc; rw [not_isStop (hI hc).run] at hs; cases hs
            · intro hc
              have := hw hc
              simpa [closedCount_snoc, closedNilCount_snoc, isClosedItem, isClosedNil] using this
          · exact hw
        · exact hw
      | step i =>
        unfold Pool.step userStep; dsimp only
        repeat' split
        all_goals
          intro hc; have := hw hc
          first
            | exact this
            | (simp only [(counts_new w.log i w.next).2.1, (counts_new w.log i w.next).2.2]
               exact this)
            | simpa [closedCount_snoc, closedNilCount_snoc, isClosedItem, isClosedNil]
                using this
      | clean => exact absurd ha hcl
      | close =>
        unfold Pool.step closeStep; dsimp only
        repeat' split
        all_goals first | exact hw | (intro hc; cases hc)
  obtain ⟨h1, h2, h3⟩ := hd hc
  have := C24_limit_up_to_nil_partial h hpos hc h1
  omega

/-- C24, what holds: for limits below four, with users that never put nil, the limit holds with the
cleaner running.
Missing: the limit with the cleaner running and limits of four or more (refuted:
`C24_limit_violated`). -/
theorem C24_limit_small_partial {max : Int} {hasNew : Bool} {n : Nat}
    {as : List Action} {w : World} (h : Reaches max hasNew n as w) (hpos : 0 ≤ max)
    (hm : max < 4) (hn : NoNilPut as) (hc : w.closer = .notYet) (hs : w.cleaner = .sleep) :
    (createdCount w.log : Int) - closedCount w.log ≤ max := by
  have h1 := C24_limit_up_to_nil_partial h hpos hc hs
  have h2 := (h.noNil hm hn).log
  omega

/-- A pool of limit two: three `Get`s, the third returns nil; after a put and two clean-ups one
item is closed and one more is created. -/
example : ∃ w, Reaches 2 true 1 (getCall 0 ++ getCall 0 ++ getCall 0 ++ putCall 0 0 ++ putCall 0 1 ++
      cleanCall 0 ++ cleanCall 1 ++ getCall 0 ++ getCall 0 ++ getCall 0) w ∧ w.closer = .notYet ∧
    w.cleaner = .sleep ∧ createdCount w.log = 3 ∧ closedCount w.log = 1 :=
  ⟨_, ⟨⟨2, true, 0, none, [], [], .running⟩, rfl, rfl⟩, by decide +kernel, by decide +kernel,
    by decide +kernel, by decide +kernel⟩

/-! ## Order -/

/-- C69 is violated: whenever the hot slot is empty, of two items put one after the other the next
`Get` returns the older. -/
theorem C69_lifo_violated {w : World} {i : Nat} {u : User} {a b : Nat}
    (hrun : w.p.state = .running) (hu : w.users[i]? = some u) (hpc : u.pc = .out)
    (ha : a ∈ u.held) (hb : b ∈ u.held) (hab : a ≠ b) (hot : w.p.hotItem = none) :
    (run w (putCall i a ++ putCall i b ++ getCall i)).log
      = w.log ++ [.gave i (some a), .gave i (some b), .got i (some a)] := by
  obtain ⟨q1, q2, q3, q4⟩ := putCall_facts hrun hu hpc ha
  obtain ⟨r1, r2, r3, r4⟩ := putCall_facts q2 q3 rfl
    ((List.mem_erase_of_ne (Ne.symm hab)).2 hb)
  have hp : (popHead (run (run w (putCall i a)) (putCall i b)).p).1 = some a := by
    rw [r1, q1]; simp [pushHead, popHead, hot]
  rw [run_append, run_append, getCall_run r2 r3 rfl hp, r4, q4]
  simp

/-- C69, what holds: an item put while the hot slot is empty is returned by the next `Get`.
Missing: items put while the hot slot is taken (refuted: `C69_lifo_violated`,
`C69_hot_item_first_violated`). -/
theorem C69_hot_item_partial {w : World} {i : Nat} {u : User} {a : Nat}
    (hrun : w.p.state = .running) (hu : w.users[i]? = some u) (hpc : u.pc = .out)
    (ha : a ∈ u.held) (hot : w.p.hotItem = none) :
    (run w (putCall i a ++ getCall i)).log = w.log ++ [.gave i (some a), .got i (some a)] := by
  obtain ⟨q1, q2, q3, q4⟩ := putCall_facts hrun hu hpc ha
  have hp : (popHead (run w (putCall i a)).p).1 = some a := by
    rw [q1]; simp [pushHead, popHead, hot]
  rw [run_append, getCall_run q2 q3 rfl hp, q4]
  simp

/-- C69: with an item `h` in the hot slot, the next `Get` returns `h` and not the item just put. -/
theorem C69_hot_item_first_violated {w : World} {i : Nat} {u : User} {a h : Nat}
    (hrun : w.p.state = .running) (hu : w.users[i]? = some u) (hpc : u.pc = .out)
    (ha : a ∈ u.held) (hot : w.p.hotItem = some h) :
    (run w (putCall i a ++ getCall i)).log = w.log ++ [.gave i (some a), .got i (some h)] := by
  obtain ⟨q1, q2, q3, q4⟩ := putCall_facts hrun hu hpc ha
  have hp : (popHead (run w (putCall i a)).p).1 = some h := by
    rw [q1]; simp [pushHead, popHead, hot]
  rw [run_append, getCall_run q2 q3 rfl hp, q4]
  simp

example : ∃ w u, Reaches 4 true 1 (getCall 0 ++ getCall 0) w ∧ w.p.state = .running ∧
    w.users[0]? = some u ∧ u.pc = .out ∧ 0 ∈ u.held ∧ 1 ∈ u.held ∧ w.p.hotItem = none :=
  ⟨_, ⟨[1, 0], .out⟩, ⟨four, four_init, rfl⟩, by decide +kernel, by decide +kernel,
    by decide +kernel, by decide +kernel, by decide +kernel, by decide +kernel⟩

/-! ## Closing -/

/-- C70, what holds: `Close` called on a running pool closes exactly the non-nil idle items, in
the order in which they were put.
Missing: the hot item and the items the cleaner holds (refuted: `C70_close_leaks_violated`). -/
theorem C70_close_exact_partial {w : World} (hrun : w.p.state = .running)
    (hc : w.closer = .notYet) :
    (run w closeCall).log = w.log ++ (w.p.idleItems.filter Option.isSome).map .closed ∧
    (run w closeCall).p.state = .stopped := by
  simp [run, closeCall, step, closeStep, hc, hrun, closeAll]

/-- C70 is violated: the hot item and the items waiting for the second clean-up round are not
closed by `Close`; once the last user is outside, nobody will ever close them. -/
theorem C70_close_leaks_violated {max : Int} {hasNew : Bool} {n : Nat} {as : List Action}
    {w : World} (h : Reaches max hasNew n as w) (hrun : w.p.state = .running)
    (hc : w.closer = .notYet) {x : Nat}
    (hx : w.p.hotItem = some x ∨ some x ∈ w.p.victimItems) :
    .closed (some x) ∉ (run w closeCall).log ∧
    ((run w closeCall).p.hotItem = some x ∨ some x ∈ (run w closeCall).p.victimItems) := by
  have own := h.inv.own x
  have dead := fun hm => ((h.dead hc).dead x hm).1
  have hp : 1 ≤ optCount w.p.hotItem x + w.p.victimItems.count (some x) := by
    rcases hx with hx | hx
    · simp [hx, optCount]
    · have := List.count_pos_iff.2 hx; omega
  simp only [owned, poolCount] at own dead
  constructor
  · rw [(C70_close_exact_partial hrun hc).1]
    simp only [List.mem_append, not_or, List.mem_map, List.mem_filter]
    constructor
    · intro hm; have := dead hm; omega
    · rintro ⟨o, ⟨ho, -⟩, e⟩
      cases e
      have := List.count_pos_iff.2 ho
      omega
  · simpa [run, closeCall, step, closeStep, hc, hrun] using hx

/-- Both kinds of leaked item occur. -/
example : ∃ w, Reaches 4 true 1 (getCall 0 ++ getCall 0 ++ putCall 0 0 ++ putCall 0 1 ++ cleanCall 0) w ∧
    w.p.state = .running ∧ w.closer = .notYet ∧ w.p.hotItem = some 0 ∧
    w.p.victimItems = [some 1] :=
  ⟨_, ⟨four, four_init, rfl⟩, by decide +kernel, by decide +kernel, by decide +kernel,
    by decide +kernel⟩

/-! ## Availability -/

/-- Four items are created, two are given back, one is taken again. -/
def starve : List Action :=
  getCall 0 ++ getCall 0 ++ getCall 0 ++ getCall 0 ++ putCall 0 0 ++ putCall 0 1 ++
  cleanCall 0 ++ getCall 0

/-- C201 is violated: `Get` returns nil although an idle item is in the pool. -/
theorem C201_idle_item_withheld_violated :
    ∃ w, Reaches 4 true 1 starve w ∧ w.p.state = .running ∧ some 1 ∈ w.p.victimItems ∧
      (run w (getCall 0)).log = w.log ++ [.got 0 none] :=
  ⟨_, ⟨four, four_init, rfl⟩, by decide +kernel, by decide +kernel, by decide +kernel⟩

/-- C201, what holds: a `Get` on a running pool returns an item if one is in the hot slot or the
most recent idle slot holds one.
Missing: items below an empty slot and items the cleaner has set aside (refuted:
`C201_idle_item_withheld_violated`, `C201_idle_item_withheld_any_violated`). -/
theorem C201_get_available_partial {w : World} {i : Nat} {u : User} {x : Nat}
    (hrun : w.p.state = .running) (hu : w.users[i]? = some u) (hpc : u.pc = .out)
    (hx : w.p.hotItem = some x ∨ (w.p.hotItem = none ∧ w.p.idleItems.getLast? = some (some x))) :
    (run w (getCall i)).log = w.log ++ [.got i (some x)] := by
  have : (popHead w.p).1 = some x := by
    rcases hx with hx | ⟨h1, h2⟩
    · simp [popHead, hx]
    · simp [popHead, h1, h2]
  rw [getCall_run hrun hu hpc this]

/-- C71: as soon as `Close` has begun, every `Get` that is called returns nil. -/
theorem C71_get_after_close {w : World} {i : Nat} {u : User}
    (hst : w.p.state = .stopping ∨ w.p.state = .stopped)
    (hu : w.users[i]? = some u) (hpc : u.pc = .out) :
    (run w (getCall i)).log = w.log ++ [.got i none] := by
  have e1 : step w (.get i) = { w with log := w.log ++ [.got i none] } := by
    rcases hst with hst | hst <;> simp [step, startGet, hu, hpc, isStop, hst]
  have e2 : step { w with log := w.log ++ [.got i none] } (.step i)
      = { w with log := w.log ++ [.got i none] } := by
    simp only [step, userStep, hu, hpc]
  simp only [run, getCall, List.foldl_cons, List.foldl_nil]
  rw [e1, e2, e2, e2]

/-- C71: as soon as `Close` has begun, an item given back is cleaned up at once. -/
theorem C71_put_after_close {w : World} {i : Nat} {u : User} {x : Nat}
    (hst : w.p.state = .stopping ∨ w.p.state = .stopped)
    (hu : w.users[i]? = some u) (hpc : u.pc = .out) (hx : x ∈ u.held) :
    (run w (putCall i x)).log = w.log ++ [.gave i (some x), .closed (some x)] ∧
    (run w (putCall i x)).p = w.p := by
  have hi : i < w.users.length := (List.getElem?_eq_some_iff.mp hu).1
  have e1 : step w (.put i (some x)) =
      { w with users := w.users.set i ⟨u.held.erase x, .out⟩
               log := w.log ++ [.gave i (some x), .closed (some x)] } := by
    rcases hst with hst | hst <;> simp [step, startPut, give, hu, hpc, isStop, hst, hx]
  simp only [run, putCall, List.foldl_cons, List.foldl_nil]
  rw [e1]
  simp only [step, List.getElem?_set_self hi, userStep, and_self]

theorem popHead_state (p : LIFO) : (popHead p).2.state = p.state := by
  unfold popHead
  split
  · rfl
  · split
    · rfl
    · split <;> rfl

theorem step_state {w : World} (a : Action) (h : w.p.state = .stopping ∨ w.p.state = .stopped) :
    (step w a).p.state = .stopping ∨ (step w a).p.state = .stopped := by
  cases a with
  | get i =>
    simp only [step]
    split
    · split
      · unfold startGet; split <;> exact h
      · exact h
    · exact h
  | put i x =>
    simp only [step]
    split
    · split
      · unfold startPut; split <;> exact h
      · exact h
    · exact h
  | step i =>
    simp only [step]
    split
    · unfold userStep
      split
      · exact h
      · have hp := popHead_state w.p
        split
        · rename_i e; rw [e] at hp; simp only at hp ⊢; rw [hp]; exact h
        · rename_i e; rw [e] at hp
          split <;> (simp only at hp ⊢; rw [hp]; exact h)
      · exact h
      · split <;> exact h
      · rename_i x _
        show (pushHead w.p x).state = _ ∨ (pushHead w.p x).state = _
        unfold pushHead
        split <;> exact h
    · exact h
  | clean =>
    simp only [step, cleanStep]
    split
    · split <;> exact h
    all_goals exact h
  | close =>
    simp only [step, closeStep]
    split
    · split
      · exact Or.inl rfl
      · exact h
    · exact h
    · exact Or.inr rfl
    · exact h

/-- C71: `Close` is final: whatever happens after it has begun, the pool never runs again. -/
theorem C71_close_is_final (as : List Action) (w : World)
    (h : w.p.state = .stopping ∨ w.p.state = .stopped) :
    (run w as).p.state = .stopping ∨ (run w as).p.state = .stopped := by
  induction as generalizing w with
  | nil => exact h
  | cons a as ih => exact ih (step w a) (step_state a h)

/-- C71: the limit permits a creation: the pool is running, no item is idle, the count is below the
limit; then an undisturbed `Get` returns a new item. -/
theorem C71_get_creates {w : World} {i : Nat} {u : User}
    (hrun : w.p.state = .running) (hu : w.users[i]? = some u) (hpc : u.pc = .out)
    (hnew : w.p.hasNew = true) (hempty : w.p.hotItem = none) (hidle : w.p.idleItems = [])
    (hvic : w.p.victimItems = []) (hlim : w.p.itemsCount < w.p.maxItems) :
    (run w (getCall i)).log = w.log ++ [.created w.next, .got i (some w.next)] := by
  have hi : i < w.users.length := (List.getElem?_eq_some_iff.mp hu).1
  simp only [run, getCall, List.foldl_cons, List.foldl_nil]
  have e1 : step w (.get i) = { w with users := w.users.set i ⟨u.held, .getPop⟩ } := by
    simp [step, startGet, hu, hpc, isStop, hrun]
  have e2 : step { w with users := w.users.set i ⟨u.held, .getPop⟩ } (.step i) =
      { w with users := w.users.set i ⟨u.held, .getAdd⟩ } := by
    have hp : popHead w.p = (none, w.p) := by simp [popHead, hempty, hidle, hvic]
    simp only [step, List.getElem?_set_self hi, userStep, hp, hnew, if_true, List.set_set]
  rw [e1, e2]
  have e3 : step { w with users := w.users.set i ⟨u.held, .getAdd⟩ } (.step i) =
      { w with p := { w.p with itemsCount := w.p.itemsCount + 1 }
               users := w.users.set i ⟨u.held, .getNew (w.p.itemsCount + 1)⟩ } := by
    simp only [step, List.getElem?_set_self hi, userStep, List.set_set]
  rw [e3]
  simp only [step, List.getElem?_set_self hi, userStep]
  rw [if_pos (by omega)]

/-- The empty pool of limit 4 with its nil slot taken: `Get` creates. -/
example : ∃ w, Reaches 4 true 1 (getCall 0) w ∧ w.p.hotItem = none ∧ w.p.idleItems = [] ∧
    w.p.victimItems = [] ∧ w.p.itemsCount < w.p.maxItems ∧ w.p.hasNew = true :=
  ⟨_, ⟨four, four_init, rfl⟩, by decide +kernel, by decide +kernel, by decide +kernel,
    by decide +kernel, by decide +kernel⟩

/-- A pool being closed while its user holds an item. -/
example : ∃ w u, Reaches 4 true 1 (getCall 0 ++ getCall 0 ++ [.close]) w ∧ w.p.state = .stopping ∧
    w.users[0]? = some u ∧ u.pc = .out ∧ 0 ∈ u.held :=
  ⟨_, ⟨[1, 0], .out⟩, ⟨four, four_init, rfl⟩, by decide +kernel, by decide +kernel, rfl,
    by decide +kernel⟩

theorem exBusy : Reaches 4 true 2 busy (run (World.start four 2) busy) := ⟨four, four_init, rfl⟩

example := C23_get_exclusive exBusy
example := C23_get_created exBusy
example := C23_held_once exBusy (i := 0) (j := 0) (u := ⟨[1], .out⟩) (v := ⟨[1], .out⟩) (x := 1) (by decide +kernel) (by decide +kernel)
  (by decide) (by decide)
example := C24_limit_violated 5 (by decide)
example := C24_limit_up_to_nil_partial exBusy (by decide) (by decide +kernel) (by decide +kernel)
example := C24_limit_without_cleaner_partial (max := 4) (hasNew := true) (n := 1) (as := getCall 0 ++ getCall 0) ⟨four, four_init, rfl⟩ (by decide)
  (by decide) (by decide +kernel)

/-- One user holds two items. -/
def exTwo : World := run (World.start four 1) (getCall 0 ++ getCall 0)
theorem exTwo_running : exTwo.p.state = .running := by decide +kernel
theorem exTwo_user : exTwo.users[0]? = some ⟨[1, 0], .out⟩ := by decide +kernel
theorem exTwo_hot : exTwo.p.hotItem = none := by decide +kernel

example := C69_lifo_violated exTwo_running exTwo_user rfl (a := 0) (b := 1) (by decide) (by decide) (by decide) exTwo_hot
example := C69_hot_item_partial exTwo_running exTwo_user rfl (a := 0) (by decide) exTwo_hot
example := C70_close_exact_partial exTwo_running (by decide +kernel)
example := C201_get_available_partial (w := run exTwo (putCall 0 0)) (i := 0) (u := ⟨[1], .out⟩) (x := 0) (by decide +kernel)
  (by decide +kernel) rfl (.inl (by decide +kernel))
example := C201_get_available_partial (w := run exTwo (putCall 0 0 ++ putCall 0 1 ++ getCall 0)) (i := 0) (u := ⟨[0], .out⟩) (x := 1)
  (by decide +kernel) (by decide +kernel) rfl (.inr (by decide +kernel))

/-- The same pool while it is being closed. -/
def exStopping : World := run exTwo [.close]
theorem exStopping_state : exStopping.p.state = .stopping := by decide +kernel

example := C71_get_after_close (w := exStopping) (i := 0) (u := ⟨[1, 0], .out⟩) (.inl exStopping_state) (by decide +kernel) rfl
example := C71_put_after_close (w := exStopping) (i := 0) (u := ⟨[1, 0], .out⟩) (x := 1) (.inl exStopping_state) (by decide +kernel) rfl
  (by decide)
example := C71_close_is_final [.close, .get 0, .clean] exStopping (.inl exStopping_state)

end Memar.Pool
