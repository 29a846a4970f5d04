import Verif.Pool.Lifecycle

/-!
# The functions a user gives to a pool: `New` and `CloseFunc` that panic or use the pool

Calls one after the other on one pool (the caller recovers from panics).  `Close` calls `CloseFunc` with the
mutex held (pool/lifo.go:88-95), everything else calls the functions without it.
-/

namespace Memar.Pool

/-- What `CloseFunc` does with an item. -/
inductive Cf
  | returns
  | panics
  /-- it calls `Len` on the same pool and then returns -/
  | len
deriving DecidableEq, Repr

/-- The pool (pool/lifo.go:17-36), whether its mutex is held by nobody any more running, and the number of items
created so far. -/
structure Held where
  p : LIFO
  locked : Bool
  next : Nat
deriving Repr

/-- How a call ends. -/
inductive Res
  | got (x : Option Nat)
  | num (n : Nat)
  | done
  | panic
  /-- it never returns: it waits for the mutex -/
  | hang
deriving DecidableEq, Repr

/-- pool/lifo.go:61-71, 132-152, 164-172 `Get`; `newPanics`: `New`, if it is called now, panics.  The counter was
raised before `New` is called (line 165). -/
def getC (newPanics : Bool) (s : Held) : Held × Res :=
  if isStop s.p then (s, .got none)
  else if s.locked then (s, .hang)
  else
    match popHead s.p with
    | (some x, p') => ({ s with p := p' }, .got (some x))
    | (none, p') =>
      if p'.hasNew then
        if p'.itemsCount + 1 ≤ p'.maxItems then
          if newPanics then ({ s with p := { p' with itemsCount := p'.itemsCount + 1 } }, .panic)
          else ({ s with p := { p' with itemsCount := p'.itemsCount + 1 }, next := s.next + 1 }, .got (some s.next))
        else ({ s with p := p' }, .got none)
      else ({ s with p := p' }, .got none)

/-- pool/lifo.go:54-59 `Len` -/
def lenC (s : Held) : Held × Res := if s.locked then (s, .hang) else (s, .num (len s.p))

/-- What a call of `CloseFunc` ends with when the mutex is held or not. -/
def callCf (locked : Bool) : Cf → Res
  | .returns => .done
  | .panics => .panic
  | .len => if locked then .hang else .done

/-- pool/lifo.go:73-80, 154-162 `Put` -/
def putC (cf : Nat → Cf) (x : Nat) (s : Held) : Held × Res :=
  if isStop s.p then (s, callCf s.locked (cf x))
  else if s.locked then (s, .hang)
  else ({ s with p := pushHead s.p (some x) }, .done)

/-- pool/lifo.go:89-94: the items `CloseFunc` was called with and how the loop ended, with the mutex held. -/
def closeLoop (cf : Nat → Cf) : List (Option Nat) → List Nat × Res
  | [] => ([], .done)
  | none :: is => closeLoop cf is
  | some x :: is =>
    match callCf true (cf x) with
    | .done => (x :: (closeLoop cf is).1, (closeLoop cf is).2)
    | r => ([x], r)

/-- pool/lifo.go:82-98 `Close`: the pool, the items `CloseFunc` was called with, how it ended. -/
def closeC (cf : Nat → Cf) (s : Held) : Held × List Nat × Res :=
  /- line 83 -/
  let s1 := { s with p := { s.p with state := .stopping } }
  if s.p.state ≠ .running then (s1, [], .panic)
  else if s.locked then (s1, [], .hang)
  else
    match closeLoop cf s.p.idleItems with
    | (cs, .done) => ({ s with p := { s.p with state := .stopped } }, cs, .done)
    | (cs, r) => ({ s1 with locked := true }, cs, r)

/-- pool/lifo.go:38-48 `Init` -/
def initC (s : Held) : Held × Res :=
  ({ s with p := (initCall s.p).1 }, if (initCall s.p).2 then .panic else .done)

/-- A call on the pool. -/
inductive Call
  | get (newPanics : Bool)
  | put (x : Nat)
  | len
  | close
  | init
deriving DecidableEq, Repr

/-- One call, pool/lifo.go:38-98. -/
def Call.apply (cf : Nat → Cf) (s : Held) : Call → Held × Res
  | .get np => getC np s
  | .put x => putC cf x s
  | .len => lenC s
  | .close => ((closeC cf s).1, (closeC cf s).2.2)
  | .init => initC s

/-- The pool after a history of calls, and how each of them ended (a call that hangs is another goroutine's).
pool/lifo.go:38-98 -/
def calls (cf : Nat → Cf) : Held → List Call → Held × List Res
  | s, [] => (s, [])
  | s, c :: cs => ((calls cf (c.apply cf s).1 cs).1, (c.apply cf s).2 :: (calls cf (c.apply cf s).1 cs).2)

/-! ## A `New` that panics -/

/-- Specification: a pool that runs, has no idle item and makes new ones. -/
structure Fresh (s : Held) : Prop where
  running : s.p.state = .running
  free : s.locked = false
  makes : s.p.hasNew = true
  empty : idleNow s.p = []

theorem filterMap_nil_last (l : List (Option Nat)) (h : l.filterMap id = []) (x : Option Nat)
    (hx : l.getLast? = some x) : x = none := by
  cases x with
  | none => rfl
  | some v =>
    have hm := List.mem_of_getLast? hx
    have : v ∈ l.filterMap id := List.mem_filterMap.2 ⟨some v, hm, rfl⟩
    rw [h] at this; simp at this

theorem filterMap_nil_dropLast (l : List (Option Nat)) (h : l.filterMap id = []) : l.dropLast.filterMap id = [] := by
  rw [List.filterMap_eq_nil_iff] at h ⊢
  exact fun a ha => h a ((List.dropLast_sublist l).mem ha)

/-- Popping from an empty pool gives nil and leaves it empty, with its counter and limit. -/
theorem pop_empty (p : LIFO) (h : idleNow p = []) :
    ∃ p', popHead p = (none, p') ∧ idleNow p' = [] ∧ p'.itemsCount = p.itemsCount ∧ p'.maxItems = p.maxItems ∧
      p'.hasNew = p.hasNew ∧ p'.state = p.state := by
  simp only [idleNow, List.append_eq_nil_iff] at h
  obtain ⟨⟨h1, h2⟩, h3⟩ := h
  have hh : p.hotItem = none := by cases hc : p.hotItem with
    | none => rfl
    | some x => rw [hc] at h1; simp at h1
  rw [popHead, hh]
  simp only
  cases hi : p.idleItems.getLast? with
  | some x =>
    have := filterMap_nil_last _ h2 x hi
    subst this
    exact ⟨_, rfl, by simp [idleNow, hh, filterMap_nil_dropLast _ h2, h3], rfl, rfl, rfl, rfl⟩
  | none =>
    simp only
    cases hv : p.victimItems.getLast? with
    | some x =>
      have := filterMap_nil_last _ h3 x hv
      subst this
      exact ⟨_, rfl, by simp [idleNow, hh, filterMap_nil_dropLast _ h3, h2], rfl, rfl, rfl, rfl⟩
    | none => exact ⟨_, rfl, by simp [idleNow, hh, h2, h3], rfl, rfl, rfl, rfl⟩

/-- A `Get` on an empty pool whose limit is used up gives nothing. -/
theorem get_full (s : Held) (h : Fresh s) (hc : s.p.maxItems ≤ s.p.itemsCount) (np : Bool) :
    ∃ s', getC np s = (s', .got none) ∧ Fresh s' ∧ s'.p.itemsCount = s.p.itemsCount ∧ s'.p.maxItems = s.p.maxItems := by
  obtain ⟨p', e, h1, h2, h3, h4, h5⟩ := pop_empty s.p h.empty
  refine ⟨{ s with p := p' }, ?_, ⟨by rw [← h.running]; exact h5, h.free, by rw [← h.makes]; exact h4, h1⟩, h2, h3⟩
  have hs : isStop s.p = false := by simp [isStop, h.running]
  rw [getC, hs]
  simp only [Bool.false_eq_true, if_false, h.free, e]
  rw [h4, h.makes, if_pos rfl, if_neg (by omega)]

/-- A `Get` on an empty pool with room left, whose `New` panics, uses up one place. -/
theorem get_panics (s : Held) (h : Fresh s) (hc : s.p.itemsCount < s.p.maxItems) :
    ∃ s', getC true s = (s', .panic) ∧ Fresh s' ∧ s'.p.itemsCount = s.p.itemsCount + 1 ∧
      s'.p.maxItems = s.p.maxItems ∧ s'.next = s.next := by
  obtain ⟨p', e, h1, h2, h3, h4, h5⟩ := pop_empty s.p h.empty
  refine ⟨{ s with p := { p' with itemsCount := p'.itemsCount + 1 } }, ?_,
    ⟨by rw [← h.running]; exact h5, h.free, by rw [← h.makes]; exact h4, h1⟩, by simp only; rw [h2], h3, rfl⟩
  have hs : isStop s.p = false := by simp [isStop, h.running]
  rw [getC, hs]
  simp only [Bool.false_eq_true, if_false, h.free, e]
  rw [h4, h.makes, if_pos rfl, if_pos (by omega), if_pos trivial]

theorem full_history (cf : Nat → Cf) (s : Held) (h : Fresh s) (hc : s.p.maxItems ≤ s.p.itemsCount) (nps : List Bool) :
    (calls cf s (nps.map .get)).2 = List.replicate nps.length (.got none) := by
  induction nps generalizing s with
  | nil => rfl
  | cons np nps ih =>
    obtain ⟨s', e, h1, h2, h3⟩ := get_full s h hc np
    simp only [List.map_cons, calls, Call.apply, e, List.length_cons, List.replicate_succ]
    rw [ih s' h1 (by omega)]

/-- C302 violated: a `New` that panics uses up a place of the pool for good: on an empty pool with room for `room` more
items, `room` calls of `Get` whose `New` panics leave a pool that has created nothing, and from then on every `Get`
returns nothing, although `New` would work again. -/
theorem C302_new_violated (cf : Nat → Cf) (s : Held) (h : Fresh s) (room : Nat) (hr : s.p.itemsCount + room = s.p.maxItems)
    (nps : List Bool) :
    (calls cf s ((List.replicate room true ++ nps).map .get)).2
      = List.replicate room .panic ++ List.replicate nps.length (.got none) ∧
    (calls cf s ((List.replicate room true).map .get)).1.next = s.next := by
  induction room generalizing s with
  | zero =>
    simp only [List.replicate_zero, List.nil_append]
    exact ⟨full_history cf s h (by omega) nps, rfl⟩
  | succ room ih =>
    obtain ⟨s', e, h1, h2, h3, h4⟩ := get_panics s h (by omega)
    obtain ⟨i1, i2⟩ := ih s' h1 (by omega)
    simp only [List.replicate_succ, List.cons_append, List.map_cons, calls, Call.apply, e]
    rw [i1]
    exact ⟨rfl, by rw [i2, h4]⟩

/-- C302, what holds of `New`: a `Get` whose `New` panics leaves the mutex free and every idle item in the pool, and with
an idle item on top `New` is not called at all.  Missing: that the place is given back (refuted: `C302_new_violated`). -/
theorem C302_new_partial (s : Held) :
    ((getC true s).2 = .panic → (getC true s).1.locked = false ∧ (getC true s).1.p.state = s.p.state ∧
      (getC true s).1.p.maxItems = s.p.maxItems ∧ (getC true s).1.p.itemsCount = s.p.itemsCount + 1 ∧
      idleNow (getC true s).1.p = idleNow s.p ∧ s.p.itemsCount < s.p.maxItems) ∧
    (∀ np x, (popHead s.p).1 = some x → isStop s.p = false → s.locked = false → (getC np s).2 = .got (some x)) := by
  constructor
  · intro h
    rw [getC] at h ⊢
    split at h
    · simp at h
    · next hs =>
      split at h
      · simp at h
      · next hl =>
        rw [if_neg hs, if_neg hl]
        have hpop : ∀ p', popHead s.p = (none, p') → idleNow p' = idleNow s.p ∧ p'.itemsCount = s.p.itemsCount ∧
            p'.maxItems = s.p.maxItems ∧ p'.state = s.p.state := by
          intro p' hp
          rw [popHead] at hp
          have drop : ∀ l : List (Option Nat), l.getLast? = some none → l.dropLast.filterMap id = l.filterMap id := by
            intro l hl
            obtain ⟨ys, rfl⟩ := List.getLast?_eq_some_iff.1 hl
            simp
          split at hp
          · simp at hp
          · next hh =>
            split at hp
            · next x hx =>
              simp only [Prod.mk.injEq] at hp
              obtain ⟨rfl, rfl⟩ := hp
              simp only [idleNow]
              rw [drop _ hx]
              simp
            · split at hp
              · next x hx =>
                simp only [Prod.mk.injEq] at hp
                obtain ⟨rfl, rfl⟩ := hp
                simp only [idleNow]
                rw [drop _ hx]
                simp
              · simp only [Prod.mk.injEq, true_and] at hp
                rw [← hp]
                exact ⟨rfl, rfl, rfl, rfl⟩
        cases hp : popHead s.p with
        | mk o p' =>
          rw [hp] at h
          cases o with
          | some x => simp at h
          | none =>
            obtain ⟨i1, i2, i3, i4⟩ := hpop p' hp
            simp only at h ⊢
            split at h
            · next hn =>
              split at h
              · next hc =>
                rw [if_pos hn, if_pos hc, if_pos trivial]
                refine ⟨by simpa using hl, i4, i3, by simp only; rw [i2], ?_, by omega⟩
                rw [← i1]; rfl
              · simp at h
            · simp at h
  · intro np x hx hs hl
    rw [getC, hs, hl]
    simp only [Bool.false_eq_true, if_false]
    cases hp : popHead s.p with
    | mk o p' =>
      rw [hp] at hx
      simp only at hx
      subst hx
      rfl

/-! ## A `CloseFunc` that panics or uses the pool -/

theorem closeLoop_bad (cf : Nat → Cf) (pre post : List (Option Nat)) (x : Nat)
    (hpre : ∀ y, some y ∈ pre → cf y = .returns) (hx : cf x ≠ .returns) :
    closeLoop cf (pre ++ some x :: post) = (pre.filterMap id ++ [x], if cf x = .panics then .panic else .hang) := by
  induction pre with
  | nil =>
    rw [List.nil_append, closeLoop]
    cases hc : cf x <;> simp_all [callCf]
  | cons y pre ih =>
    have ih := ih (fun z hz => hpre z (by simp [hz]))
    cases y with
    | none => rw [List.cons_append, closeLoop, ih]; simp
    | some y =>
      rw [List.cons_append, closeLoop, hpre y (by simp)]
      simp only [callCf]
      rw [ih]
      simp

theorem closeLoop_good (cf : Nat → Cf) (is : List (Option Nat)) (h : ∀ y, some y ∈ is → cf y = .returns) :
    closeLoop cf is = (is.filterMap id, .done) := by
  induction is with
  | nil => rfl
  | cons y is ih =>
    have ih := ih (fun z hz => h z (by simp [hz]))
    cases y with
    | none => rw [closeLoop, ih]; simp
    | some y =>
      rw [closeLoop, h y (by simp)]
      simp only [callCf]
      rw [ih]
      simp

theorem locked_apply (cf : Nat → Cf) (s : Held) (hl : s.locked = true) (hu : s.p.state ≠ .unset) (c : Call) :
    (c.apply cf s).1.locked = true ∧ (c.apply cf s).1.p.state ≠ .unset ∧
    idleNow (c.apply cf s).1.p = idleNow s.p ∧
    (c = .len → (c.apply cf s).2 = .hang) ∧ (∀ x, (c.apply cf s).2 ≠ .got (some x)) ∧
    (c = .close → (c.apply cf s).2 ≠ .done) ∧ (c = .init → (c.apply cf s).2 = .panic) := by
  cases c with
  | get np =>
    simp only [Call.apply]
    rw [getC]
    split
    · exact ⟨hl, hu, rfl, by simp, by simp, by simp, by simp⟩
    · exact ⟨hl, hu, rfl, by simp, by simp, by simp, by simp⟩
  | put x =>
    simp only [Call.apply]
    rw [putC]
    split
    · refine ⟨hl, hu, rfl, by simp, ?_, by simp, by simp⟩
      intro y; simp only [hl]; cases cf x <;> simp [callCf]
    · exact ⟨hl, hu, rfl, by simp, by simp, by simp, by simp⟩
  | len =>
    simp only [Call.apply]
    rw [lenC, if_pos hl]; exact ⟨hl, hu, rfl, by simp, by simp, by simp, by simp⟩
  | close =>
    simp only [Call.apply]
    rw [closeC]
    split
    · exact ⟨hl, by simp, rfl, by simp, by simp, by simp, by simp⟩
    · exact ⟨hl, by simp, rfl, by simp, by simp, by simp, by simp⟩
  | init =>
    simp only [Call.apply]
    rw [initC, initCall]
    simp only [ne_eq, hu, not_false_eq_true, if_true]
    exact ⟨hl, by simp, rfl, by simp, by simp, by simp, by simp⟩

/-- C302 violated: when `CloseFunc` panics or asks the pool for its length for one of the idle items, `Close` does not
return: the items behind it are never cleaned up, the pool never counts as stopped by it, and in every later history
`Len` hangs, a `Get` returns nothing or, where a refused `Init` made the pool count as running again, hangs, as a `Put`
does then, and no `Close` succeeds. -/
theorem C302_close_violated (cf : Nat → Cf) (s : Held) (hs : s.p.state = .running) (hf : s.locked = false)
    (pre post : List (Option Nat)) (x : Nat) (hi : s.p.idleItems = pre ++ some x :: post)
    (hpre : ∀ y, some y ∈ pre → cf y = .returns) (hx : cf x ≠ .returns) :
    ∃ s', closeC cf s = (s', pre.filterMap id ++ [x], if cf x = .panics then .panic else .hang) ∧
      s'.p.state = .stopping ∧ idleNow s'.p = idleNow s.p ∧
      ∀ cs : List Call, idleNow (calls cf s' cs).1.p = idleNow s.p ∧
        (lenC (calls cf s' cs).1).2 = .hang ∧
        (∀ np, (getC np (calls cf s' cs).1).2 = if isStop (calls cf s' cs).1.p then .got none else .hang) ∧
        (∀ y, isStop (calls cf s' cs).1.p = false → (putC cf y (calls cf s' cs).1).2 = .hang) ∧
        (closeC cf (calls cf s' cs).1).2.2 ≠ .done := by
  refine ⟨{ s with p := { s.p with state := .stopping }, locked := true }, ?_, rfl, rfl, ?_⟩
  · rw [closeC, hs, hf, hi, closeLoop_bad cf pre post x hpre hx]
    simp only [ne_eq, not_true_eq_false, if_false, Bool.false_eq_true]
    by_cases hc : cf x = .panics
    · simp [hc]
    · simp [hc]
  · have main : ∀ (cs : List Call) (s1 : Held), s1.locked = true → s1.p.state ≠ .unset →
        (calls cf s1 cs).1.locked = true ∧ (calls cf s1 cs).1.p.state ≠ .unset ∧
        idleNow (calls cf s1 cs).1.p = idleNow s1.p := by
      intro cs
      induction cs with
      | nil => intro s1 h1 h2; exact ⟨h1, h2, rfl⟩
      | cons c cs ih =>
        intro s1 h1 h2
        obtain ⟨a1, a2, a3, _⟩ := locked_apply cf s1 h1 h2 c
        obtain ⟨i1, i2, i3⟩ := ih _ a1 a2
        exact ⟨i1, i2, i3.trans a3⟩
    intro cs
    obtain ⟨m1, m2, m3⟩ := main cs { s with p := { s.p with state := .stopping }, locked := true } rfl (by simp)
    refine ⟨m3, ?_, ?_, ?_, ?_⟩
    · exact (locked_apply cf _ m1 m2 .len).2.2.2.1 rfl
    · intro np
      rw [getC]
      split <;> rfl
    · intro y hy
      rw [putC, hy, if_pos m1]
      rfl
    · exact (locked_apply cf _ m1 m2 .close).2.2.2.2.2.1 rfl

/-- C302, what holds of `CloseFunc`: when it returns without using the pool for the idle items of the list, `Close`
returns, has called it once for each of them in order, and the pool is stopped; and a `CloseFunc` called by `Put` may
ask for the length, since the mutex is free then.  Missing: a `CloseFunc` that panics or uses the pool within `Close`
(refuted: `C302_close_violated`). -/
theorem C302_close_partial (cf : Nat → Cf) (s : Held) (hf : s.locked = false) :
    (s.p.state = .running → (∀ y, some y ∈ s.p.idleItems → cf y = .returns) →
      closeC cf s = ({ s with p := { s.p with state := .stopped } }, s.p.idleItems.filterMap id, .done)) ∧
    (∀ x, isStop s.p = true → putC cf x s = (s, if cf x = .panics then .panic else .done)) := by
  constructor
  · intro hs hg
    rw [closeC, hs, hf, closeLoop_good cf _ hg]
    simp
  · intro x hst
    rw [putC, hst, hf]
    cases hc : cf x <;> simp [callCf]

/-! ## Functions that return -/

theorem pop_perm (p : LIFO) :
    (idleNow p).Perm ((popHead p).1.toList ++ idleNow (popHead p).2) ∧ (popHead p).2.itemsCount = p.itemsCount ∧
      (popHead p).2.maxItems = p.maxItems ∧ (popHead p).2.hasNew = p.hasNew ∧ (popHead p).2.state = p.state := by
  have split : ∀ (l : List (Option Nat)) (x : Option Nat), l.getLast? = some x →
      l.filterMap id = l.dropLast.filterMap id ++ x.toList := by
    intro l x hx
    obtain ⟨hne, e⟩ := List.getLast?_eq_some_iff.1 hx
    subst e
    cases x <;> simp
  rw [popHead]
  cases hh : p.hotItem with
  | some x => simp [idleNow, hh]
  | none =>
    simp only
    cases hi : p.idleItems.getLast? with
    | some x =>
      refine ⟨?_, rfl, rfl, rfl, rfl⟩
      simp only [idleNow, hh, split _ _ hi, Option.toList_none, List.nil_append]
      rw [← List.append_assoc]
      exact List.Perm.append_right _ List.perm_append_comm
    | none =>
      simp only
      cases hv : p.victimItems.getLast? with
      | some x =>
        refine ⟨?_, rfl, rfl, rfl, rfl⟩
        simp only [idleNow, hh, split _ _ hv, Option.toList_none, List.nil_append]
        rw [← List.append_assoc]
        exact List.perm_append_comm
      | none => simp

theorem push_perm (p : LIFO) (x : Nat) :
    (idleNow (pushHead p (some x))).Perm (x :: idleNow p) ∧ (pushHead p (some x)).itemsCount = p.itemsCount ∧
      (pushHead p (some x)).maxItems = p.maxItems ∧ (pushHead p (some x)).hasNew = p.hasNew ∧
      (pushHead p (some x)).state = p.state := by
  rw [pushHead]
  cases hh : p.hotItem with
  | none => simp [idleNow, hh]
  | some y =>
    refine ⟨?_, rfl, rfl, rfl, rfl⟩
    simp only [idleNow, hh, List.filterMap_append, List.append_assoc, Option.toList_some, List.singleton_append]
    refine .trans (.cons _ ?_) (.swap _ _ _)
    show ((p.idleItems.filterMap id ++ [x]) ++ p.victimItems.filterMap id).Perm
      (x :: (p.idleItems.filterMap id ++ p.victimItems.filterMap id))
    rw [List.append_assoc]
    exact List.perm_middle

/-- Specification: a use of the pool, `some x` puts the item `x` into it and `none` gets one. -/
def asCall : Option Nat → Call
  | some x => .put x
  | none => .get false

/-- Specification: the items that calls handed out. -/
def handedOut (rs : List Res) : List Nat := rs.filterMap fun r => match r with | .got x => x | _ => none

/-- C302, what holds of functions that return: whatever users get from a running pool and put into it, every call returns;
the items there were, those put into the pool and those `New` made are, each once, the ones handed out and the ones in the
pool; the counter of the pool has grown by the items made, and making one does not exceed the limit.
Missing: functions that panic (refuted: `C302_new_violated`, `C302_close_violated`). -/
theorem C302_returns_partial (cf : Nat → Cf) (s : Held) (hs : s.p.state = .running) (hf : s.locked = false)
    (uses : List (Option Nat)) :
    let r := calls cf s (uses.map asCall)
    (∀ x ∈ r.2, x ≠ .hang ∧ x ≠ .panic) ∧ r.1.locked = false ∧ r.1.p.state = .running ∧
    ∃ made, r.1.next = s.next + made ∧ r.1.p.itemsCount = s.p.itemsCount + made ∧ r.1.p.maxItems = s.p.maxItems ∧
      (0 < made → r.1.p.itemsCount ≤ s.p.maxItems) ∧
      (idleNow s.p ++ uses.filterMap id ++ List.range' s.next made).Perm (handedOut r.2 ++ idleNow r.1.p) := by
  induction uses generalizing s with
  | nil =>
    refine ⟨by simp [calls], hf, hs, 0, rfl, by simp [calls], rfl, by simp, ?_⟩
    simp [calls, handedOut]
  | cons u uses ih =>
    have hst : isStop s.p = false := by simp [isStop, hs]
    cases u with
    | some x =>
      obtain ⟨q1, q2, q3, q4, q5⟩ := push_perm s.p x
      have e : (asCall (some x)).apply cf s = ({ s with p := pushHead s.p (some x) }, .done) := by
        simp [asCall, Call.apply, putC, hst, hf]
      obtain ⟨i1, i2, i3, made, i4, i5, i6, i7, i8⟩ := ih { s with p := pushHead s.p (some x) } (q5.trans hs) hf
      simp only [List.map_cons, calls, e]
      refine ⟨?_, i2, i3, made, i4, by rw [i5, q2], by rw [i6, q3], fun h => by rw [← q3]; exact i7 h, ?_⟩
      · intro y hy
        rcases List.mem_cons.1 hy with rfl | hy
        · simp
        · exact i1 y hy
      · refine .trans ?_ i8
        simp only [List.filterMap_cons, id_eq, List.append_assoc]
        refine .trans List.perm_middle ?_
        rw [← List.cons_append]
        exact q1.symm.append_right _
    | none =>
      obtain ⟨q1, q2, q3, q4, q5⟩ := pop_perm s.p
      have base : ∀ (s' : Held) (x : Option Nat) (k : Nat), getC false s = (s', .got x) → s'.p.state = .running →
          s'.locked = false → s'.next = s.next + k → s'.p.itemsCount = s.p.itemsCount + k → s'.p.maxItems = s.p.maxItems →
          (0 < k → s'.p.itemsCount ≤ s.p.maxItems) →
          (idleNow s.p ++ List.range' s.next k).Perm (x.toList ++ idleNow s'.p) →
          let r := calls cf s ((none :: uses).map asCall)
          (∀ x ∈ r.2, x ≠ .hang ∧ x ≠ .panic) ∧ r.1.locked = false ∧ r.1.p.state = .running ∧
          ∃ made, r.1.next = s.next + made ∧ r.1.p.itemsCount = s.p.itemsCount + made ∧ r.1.p.maxItems = s.p.maxItems ∧
            (0 < made → r.1.p.itemsCount ≤ s.p.maxItems) ∧
            (idleNow s.p ++ (none :: uses).filterMap id ++ List.range' s.next made).Perm
              (handedOut r.2 ++ idleNow r.1.p) := by
        intro s' x k e h1 h2 h3 h4 h5 h6 h7
        obtain ⟨i1, i2, i3, made, i4, i5, i6, i7, i8⟩ := ih s' h1 h2
        have e' : (asCall none).apply cf s = (s', .got x) := e
        simp only [List.map_cons, calls, e']
        refine ⟨?_, i2, i3, k + made, by omega, by rw [i5, h4]; push_cast; omega, by rw [i6, h5], ?_, ?_⟩
        · intro y hy
          rcases List.mem_cons.1 hy with rfl | hy
          · simp
          · exact i1 y hy
        · intro h
          rcases Nat.eq_zero_or_pos made with hm | hm
          · rw [i5, hm]; have := h6 (by omega); simpa using this
          · rw [← h5]; exact i7 hm
        · have hr : List.range' s.next (k + made) = List.range' s.next k ++ List.range' s'.next made := by
            rw [h3, List.range'_append_1]
          have ho : handedOut (.got x :: (calls cf s' (uses.map asCall)).2)
              = x.toList ++ handedOut (calls cf s' (uses.map asCall)).2 := by
            cases x <;> simp [handedOut]
          rw [hr, ho]
          simp only [List.filterMap_cons, id_eq, List.append_assoc]
          refine .trans ?_ (i8.append_left _)
          simp only [List.append_assoc]
          rw [← List.append_assoc x.toList]
          refine .trans ?_ (h7.append_right _)
          simp only [List.append_assoc]
          refine List.Perm.append_left _ ?_
          rw [← List.append_assoc, ← List.append_assoc]
          exact List.perm_append_comm.append_right _
      cases hp : popHead s.p with
      | mk x p' =>
        rw [hp] at q1 q2 q3 q4 q5
        simp only at q1 q2 q3 q4 q5
        cases x with
        | some x =>
          refine base { s with p := p' } (some x) 0 ?_ (q5.trans hs) hf rfl (by simp [q2]) q3 (by simp) (by simpa using q1)
          simp [getC, hst, hf, hp]
        | none =>
          by_cases hn : p'.hasNew = true
          · by_cases hc : p'.itemsCount + 1 ≤ p'.maxItems
            · refine base { s with p := { p' with itemsCount := p'.itemsCount + 1 }, next := s.next + 1 } (some s.next) 1 ?_
                (q5.trans hs) hf rfl (by simp [q2]) q3 (fun _ => by rw [← q3]; exact hc) ?_
              · simp [getC, hst, hf, hp, hn, hc]
              · have : (idleNow s.p).Perm (idleNow p') := by simpa using q1
                simp only [List.range'_one]
                refine List.perm_append_comm.trans ?_
                exact this.append_left _
            · refine base { s with p := p' } none 0 ?_ (q5.trans hs) hf rfl (by simp [q2]) q3 (by simp) (by simpa using q1)
              simp [getC, hst, hf, hp, hn, hc]
          · refine base { s with p := p' } none 0 ?_ (q5.trans hs) hf rfl (by simp [q2]) q3 (by simp) (by simpa using q1)
            simp [getC, hst, hf, hp, hn]

/-- Five places, one nil slot, nothing created. -/
def exHeld : Held := ⟨⟨5, true, 0, none, [none], [], .running⟩, false, 0⟩
example : Fresh exHeld := ⟨rfl, rfl, rfl, rfl⟩
example := C302_new_violated (fun _ => .returns) exHeld ⟨rfl, rfl, rfl, rfl⟩ 5 rfl [false, false]
example : (calls (fun _ => .returns) exHeld [.get true, .get false, .put 0, .get false]).2
    = [.panic, .got (some 0), .done, .got (some 0)] := by decide +kernel
example := C302_close_violated (fun x => if x = 2 then .len else .returns)
  ⟨⟨5, true, 3, none, [none, some 1, some 2, some 3], [], .running⟩, false, 4⟩ rfl rfl [none, some 1] [some 3] 2 rfl
  (by simp) (by decide)
example := (C302_close_partial (fun x => if x = 9 then .len else .returns)
  ⟨⟨5, true, 3, none, [none, some 1, some 2], [], .running⟩, false, 4⟩ rfl).1 rfl (by simp)
example := C302_returns_partial (fun _ => .panics) exHeld rfl rfl [none, none, some 1, some 7, none]

end Memar.Pool
