import Verif.Event.Props

/-!
# Event targets and panics: event/target.go

The calls on a target take its mutex and release it without `defer`.  `Event/Model.lean` follows calls in
which nothing panics; here the two places that can panic do so: calling a listener (event/target.go:36) and
comparing a listener with `==` (event/target.go:56).  A goroutine that panics and recovers further up (as with
the handler in log/panic_handler.go:15-16) goes on with `after t`; the mutex stays as it was.
-/

namespace Memar.Event
open Memar

set_option linter.unusedSectionVars false
variable {Cb Opt Ev : Type} [DecidableEq Cb]

/-- Go's `==` on interface values, as in event/target.go:56: values of different dynamic types differ; values of
one type that is comparable are compared; values of one type that is not (functions, slices, maps and structs
with them) panic, `none`.  Nil is taken as the one value of a type of its own.  Simplified: whether a comparison
panics is a matter of the type; a struct type with interface fields may panic for some of its values only. -/
def goEq (ty : Cb → Nat) (comparable : Nat → Bool) (a b : Cb) : Option Bool :=
  if ty a ≠ ty b then some false
  else if comparable (ty a) then some (decide (a = b))
  else none

/-- event/target.go:54-62 with a comparison that may panic: `none` when it does. -/
def removeP (eq : Cb → Cb → Option Bool) (callback : Cb) : List (Listener Cb Opt) → Option (List (Listener Cb Opt))
  | [] => some []
  | l :: ls =>
    match eq l.eventListener callback with
    | none => none
    | some true => some ls
    | some false => (removeP eq callback ls).map (l :: ·)

/-- What happens to goroutine `t` when it panics in a call on the target and recovers outside of it: the
mutex is not released (event/target.go:38, 63 are not reached). -/
def panicked (after : Nat → List (Op Cb Opt Ev)) (t : Nat) (s : Sys Cb Opt Ev) : Sys Cb Opt Ev :=
  { s with threads := setThread s.threads t [.prog (after t)] }

/-- One step of goroutine `t`, event/target.go:31-65; `none` when it cannot move.  `handler c` are the calls
that callback `c` makes on this same target; `none` when it panics (as a nil callback does). -/
def stepP (eq : Cb → Cb → Option Bool) (handler : Cb → Option (List (Op Cb Opt Ev)))
    (after : Nat → List (Op Cb Opt Ev)) (t : Nat) (s : Sys Cb Opt Ev) : Option (Sys Cb Opt Ev) :=
  match s.threads t with
  | [] => none
  | .prog [] :: k => some { s with threads := setThread s.threads t k }
  | .prog (op :: rest) :: k =>
    if s.lock = none then
      some { s with lock := some t, threads := setThread s.threads t (.body op :: .prog rest :: k) }
    else none
  | .body (.add c o) :: k =>
    some { s with lock := none, ls := add s.ls c o, threads := setThread s.threads t k }
  | .body (.remove c) :: k =>
    match removeP eq c s.ls with
    | some ls => some { s with lock := none, ls := ls, threads := setThread s.threads t k }
    | none => some (panicked after t s)
  | .body (.dispatch e) :: k =>
    some { s with threads := setThread s.threads t (.calling e s.ls :: k) }
  | .calling e (l :: todo) :: k =>
    match handler l.eventListener with
    | some ops => some { s with
        trace := s.trace ++ [(l.eventListener, e)]
        threads := setThread s.threads t (.prog ops :: .calling e todo :: k) }
    | none => some (panicked after t { s with trace := s.trace ++ [(l.eventListener, e)] })
  | .calling _ [] :: k => some { s with lock := none, threads := setThread s.threads t k }

/-- The states a schedule leads to, event/target.go:31-65. -/
def execP (eq : Cb → Cb → Option Bool) (handler : Cb → Option (List (Op Cb Opt Ev)))
    (after : Nat → List (Op Cb Opt Ev)) : List Nat → Sys Cb Opt Ev → Option (Sys Cb Opt Ev)
  | [], s => some s
  | t :: ts, s => (stepP eq handler after t s).bind (execP eq handler after ts)

/-! ## Specification -/

/-- Specification: goroutine `t` is at a listener that panics or at a comparison that panics. -/
def Panics (eq : Cb → Cb → Option Bool) (handler : Cb → Option (List (Op Cb Opt Ev))) (s : Sys Cb Opt Ev)
    (t : Nat) : Prop :=
  (∃ e l todo k, s.threads t = .calling e (l :: todo) :: k ∧ handler l.eventListener = none) ∨
  (∃ c k, s.threads t = .body (.remove c) :: k ∧
    ∃ pre x post, s.ls = pre ++ x :: post ∧ (∀ y ∈ pre, eq y.eventListener c = some false) ∧
      eq x.eventListener c = none)

/-- Specification: in every continuation nothing is registered, removed or called any more, and no goroutine
that has a call left to make makes it. -/
def StuckForGood (eq : Cb → Cb → Option Bool) (handler : Cb → Option (List (Op Cb Opt Ev)))
    (after : Nat → List (Op Cb Opt Ev)) (s : Sys Cb Opt Ev) : Prop :=
  ∀ sched s', execP eq handler after sched s = some s' →
    s'.ls = s.ls ∧ s'.trace = s.trace ∧
    ∀ u op rest, s.threads u = [.prog (op :: rest)] → s'.threads u = [.prog (op :: rest)] ∧
      stepP eq handler after u s' = none

/-! ## Comparing listeners -/

theorem removeP_none (eq : Cb → Cb → Option Bool) (c : Cb) (ls : List (Listener Cb Opt)) :
    removeP eq c ls = none ↔ ∃ pre x post, ls = pre ++ x :: post ∧
      (∀ y ∈ pre, eq y.eventListener c = some false) ∧ eq x.eventListener c = none := by
  induction ls with
  | nil => simp [removeP]
  | cons l ls ih =>
    rw [removeP]
    cases he : eq l.eventListener c with
    | none => simp only [true_iff]; exact ⟨[], l, ls, rfl, by simp, he⟩
    | some b =>
      cases b with
      | true =>
        constructor
        · intro h; simp at h
        · rintro ⟨pre, x, post, h1, h2, h3⟩
          cases pre with
          | nil => simp only [List.nil_append, List.cons.injEq] at h1; rw [← h1.1, he] at h3; simp at h3
          | cons y pre =>
            simp only [List.cons_append, List.cons.injEq] at h1
            have := h2 y (by simp); rw [← h1.1, he] at this; simp at this
      | false =>
        simp only [Option.map_eq_none_iff]
        rw [ih]
        constructor
        · rintro ⟨pre, x, post, h1, h2, h3⟩
          refine ⟨l :: pre, x, post, by rw [h1]; rfl, ?_, h3⟩
          intro y hy
          rcases List.mem_cons.1 hy with rfl | hy
          · exact he
          · exact h2 y hy
        · rintro ⟨pre, x, post, h1, h2, h3⟩
          cases pre with
          | nil => simp only [List.nil_append, List.cons.injEq] at h1; rw [← h1.1, he] at h3; simp at h3
          | cons y pre =>
            simp only [List.cons_append, List.cons.injEq] at h1
            exact ⟨pre, x, post, h1.2, fun z hz => h2 z (by simp [hz]), h3⟩

theorem remove_eraseP (ls : List (Listener Cb Opt)) (c : Cb) :
    remove ls c = ls.eraseP (fun l => l.eventListener = c) := by
  rw [remove, removeLoop_eq c ls _ _ (by omega)]; simp

/-- A comparison that answers gives the answer of equality. -/
def Right (eq : Cb → Cb → Option Bool) : Prop := ∀ a b r, eq a b = some r → r = decide (a = b)

theorem goEq_right (ty : Cb → Nat) (cmp : Nat → Bool) : Right (goEq ty cmp) := by
  intro a b r h
  rw [goEq] at h
  split at h
  · next hn =>
    injection h with h
    subst h
    symm
    simp only [decide_eq_false_iff_not]
    rintro rfl; exact hn rfl
  · split at h
    · injection h with h; exact h.symm
    · simp at h

theorem removeP_some (eq : Cb → Cb → Option Bool) (hr : Right eq) (c : Cb) (ls ls' : List (Listener Cb Opt))
    (h : removeP eq c ls = some ls') : ls' = remove ls c := by
  rw [remove_eraseP]
  induction ls generalizing ls' with
  | nil => simp only [removeP, Option.some.injEq] at h; rw [← h]; rfl
  | cons l ls ih =>
    rw [removeP] at h
    cases he : eq l.eventListener c with
    | none => rw [he] at h; simp at h
    | some b =>
      have hb := hr _ _ _ he
      rw [he] at h
      cases b with
      | true =>
        simp only [Option.some.injEq] at h
        rw [List.eraseP_cons_of_pos (by rw [← hb]), h]
      | false =>
        simp only [Option.map_eq_some_iff] at h
        obtain ⟨l', h1, h2⟩ := h
        rw [List.eraseP_cons_of_neg (by rw [← hb]; simp), ← h2, ih l' h1]

theorem removeP_other (ty : Cb → Nat) (cmp : Nat → Bool) (c : Cb) (ls : List (Listener Cb Opt))
    (h : ∀ l ∈ ls, ty l.eventListener ≠ ty c) : removeP (goEq ty cmp) c ls = some ls := by
  induction ls with
  | nil => rfl
  | cons l ls ih =>
    rw [removeP, goEq, if_pos (h l (by simp))]
    simp only
    rw [ih (fun x hx => h x (by simp [hx]))]
    rfl

/-- C301 violated: a listener whose type cannot be compared cannot be removed: removing it panics whenever it, or
any listener of the same type, is registered, and does nothing otherwise. -/
theorem C301_uncomparable_violated (ty : Cb → Nat) (cmp : Nat → Bool) (ls : List (Listener Cb Opt)) (c : Cb)
    (hc : cmp (ty c) = false) :
    (removeP (goEq ty cmp) c ls = none ↔ ∃ l ∈ ls, ty l.eventListener = ty c) ∧
    ((∀ l ∈ ls, ty l.eventListener ≠ ty c) → removeP (goEq ty cmp) c ls = some ls) := by
  refine ⟨⟨?_, ?_⟩, removeP_other ty cmp c ls⟩
  · intro h
    refine Classical.byContradiction (fun hn => ?_)
    have := removeP_other ty cmp c ls (fun l hl e => hn ⟨l, hl, e⟩)
    rw [h] at this; simp at this
  · rintro ⟨l, hl, he⟩
    induction ls with
    | nil => simp at hl
    | cons x ls ih =>
      rw [removeP]
      by_cases hx : ty x.eventListener = ty c
      · rw [goEq, if_neg (by simpa using hx), hx, hc]; rfl
      · rw [goEq, if_pos hx]
        rcases List.mem_cons.1 hl with rfl | hl
        · exact absurd he hx
        · simp only [Option.map_eq_none_iff]
          exact ih hl

/-- C301: a listener whose type can be compared is removed without a panic, whatever else is registered, exactly as
in C40.
Missing: listeners of a type that cannot be compared (refuted: `C301_uncomparable_violated`). -/
theorem C301_comparable_partial (ty : Cb → Nat) (cmp : Nat → Bool) (ls : List (Listener Cb Opt)) (c : Cb)
    (hc : cmp (ty c) = true) : removeP (goEq ty cmp) c ls = some (remove ls c) := by
  cases h : removeP (goEq ty cmp) c ls with
  | some ls' => rw [removeP_some _ (goEq_right ty cmp) c ls ls' h]
  | none =>
    obtain ⟨pre, x, post, _, _, h3⟩ := (removeP_none _ c ls).1 h
    rw [goEq] at h3
    split at h3
    · simp at h3
    · next hn =>
      have hx : ty x.eventListener = ty c := Classical.byContradiction hn
      rw [hx, hc] at h3
      simp at h3

/-! ## Schedules -/

/-- A step that does not panic is one of the model without panics; a panic leaves everything but its own goroutine
and the trace alone. -/
theorem stepP_cases (eq : Cb → Cb → Option Bool) (hr : Right eq) (handler : Cb → Option (List (Op Cb Opt Ev)))
    (after : Nat → List (Op Cb Opt Ev)) (t : Nat) (s s' : Sys Cb Opt Ev)
    (h : stepP eq handler after t s = some s') :
    (¬ Panics eq handler s t ∧ step (fun c => (handler c).getD []) t s = some s') ∨
    (Panics eq handler s t ∧ s'.lock = s.lock ∧ s'.ls = s.ls ∧
      s'.threads = setThread s.threads t [.prog (after t)]) := by
  rw [stepP] at h
  split at h
  · simp at h
  · next k hk =>
    left
    refine ⟨?_, by rw [step, hk]; exact h⟩
    rintro (⟨e, l, todo, k', h1, _⟩ | ⟨c, k', h1, _⟩) <;> (rw [hk] at h1; simp at h1)
  · next op rest k hk =>
    left
    refine ⟨?_, by rw [step, hk]; exact h⟩
    rintro (⟨e, l, todo, k', h1, _⟩ | ⟨c, k', h1, _⟩) <;> (rw [hk] at h1; simp at h1)
  · next c o k hk =>
    left
    refine ⟨?_, by rw [step, hk]; exact h⟩
    rintro (⟨e, l, todo, k', h1, _⟩ | ⟨c, k', h1, _⟩) <;> (rw [hk] at h1; simp at h1)
  · next c k hk =>
    cases hm : removeP eq c s.ls with
    | some ls =>
      rw [hm] at h
      left
      refine ⟨?_, ?_⟩
      · rintro (⟨e, l, todo, k', h1, _⟩ | ⟨c', k', h1, h2⟩)
        · rw [hk] at h1; simp at h1
        · rw [hk] at h1
          simp only [List.cons.injEq, Frame.body.injEq, Op.remove.injEq] at h1
          rw [← h1.1] at h2
          rw [(removeP_none eq c s.ls).2 h2] at hm
          simp at hm
      · rw [removeP_some eq hr c s.ls ls hm] at h
        rw [step, hk]; exact h
    | none =>
      rw [hm] at h
      right
      simp only [Option.some.injEq] at h
      subst h
      exact ⟨.inr ⟨c, k, hk, (removeP_none eq c s.ls).1 hm⟩, rfl, rfl, rfl⟩
  · next e k hk =>
    left
    refine ⟨?_, by rw [step, hk]; exact h⟩
    rintro (⟨e, l, todo, k', h1, _⟩ | ⟨c, k', h1, _⟩) <;> (rw [hk] at h1; simp at h1)
  · next e l todo k hk =>
    cases hm : handler l.eventListener with
    | some ops =>
      rw [hm] at h
      left
      refine ⟨?_, ?_⟩
      · rintro (⟨e', l', todo', k', h1, h2⟩ | ⟨c', k', h1, h2⟩)
        · rw [hk] at h1
          simp only [List.cons.injEq, Frame.calling.injEq] at h1
          rw [← h1.1.2.1, hm] at h2
          simp at h2
        · rw [hk] at h1; simp at h1
      · rw [step, hk]
        simp only [hm, Option.getD_some]
        exact h
    | none =>
      rw [hm] at h
      right
      simp only [Option.some.injEq] at h
      subst h
      exact ⟨.inl ⟨e, l, todo, k, hk, hm⟩, rfl, rfl, rfl⟩
  · next e k hk =>
    left
    refine ⟨?_, by rw [step, hk]; exact h⟩
    rintro (⟨e, l, todo, k', h1, _⟩ | ⟨c, k', h1, _⟩) <;> (rw [hk] at h1; simp at h1)

/-- The mutex is held and nobody is inside a call. -/
def Dead (s : Sys Cb Opt Ev) : Prop :=
  s.lock ≠ none ∧ ∀ u, s.threads u = [] ∨ ∃ ops, s.threads u = [.prog ops]

theorem dead_step (eq : Cb → Cb → Option Bool) (handler : Cb → Option (List (Op Cb Opt Ev)))
    (after : Nat → List (Op Cb Opt Ev)) (t : Nat) (s s' : Sys Cb Opt Ev) (hd : Dead s)
    (h : stepP eq handler after t s = some s') :
    Dead s' ∧ s'.ls = s.ls ∧ s'.trace = s.trace ∧
      ∀ u op rest, s.threads u = [.prog (op :: rest)] → s'.threads u = [.prog (op :: rest)] := by
  rcases hd.2 t with ht | ⟨ops, ht⟩
  · rw [stepP, ht] at h; simp at h
  · cases ops with
    | nil =>
      rw [stepP, ht] at h
      simp only [Option.some.injEq] at h
      subst h
      refine ⟨⟨hd.1, ?_⟩, rfl, rfl, ?_⟩
      · intro u
        by_cases hu : u = t
        · subst hu; left; exact setThread_self _ _ _
        · simp only [setThread_ne _ _ _ _ hu]; exact hd.2 u
      · intro u op rest hu
        have hut : u ≠ t := by rintro rfl; rw [ht] at hu; simp at hu
        simp only [setThread_ne _ _ _ _ hut]; exact hu
    | cons op rest =>
      rw [stepP, ht] at h
      simp only [if_neg hd.1] at h
      simp at h

theorem dead_stuck (eq : Cb → Cb → Option Bool) (handler : Cb → Option (List (Op Cb Opt Ev)))
    (after : Nat → List (Op Cb Opt Ev)) (s : Sys Cb Opt Ev) (hd : Dead s) : StuckForGood eq handler after s := by
  intro sched
  induction sched generalizing s with
  | nil =>
    intro s' h
    injection h with h
    subst h
    refine ⟨rfl, rfl, fun u op rest hu => ⟨hu, ?_⟩⟩
    rw [stepP, hu]
    simp only [if_neg hd.1]
  | cons t ts ih =>
    intro s' h
    rw [execP] at h
    cases hs : stepP eq handler after t s with
    | none => rw [hs] at h; simp at h
    | some s1 =>
      rw [hs] at h
      obtain ⟨d1, d2, d3, d4⟩ := dead_step eq handler after t s s1 hd hs
      obtain ⟨i1, i2, i3⟩ := ih s1 d1 s' h
      exact ⟨i1.trans d2, i2.trans d3, fun u op rest hu => i3 u op rest (d4 u op rest hu)⟩

/-- Until something panics a schedule does what it does in the model without panics, and afterwards the target is dead. -/
theorem execP_cases (eq : Cb → Cb → Option Bool) (hr : Right eq) (handler : Cb → Option (List (Op Cb Opt Ev)))
    (after : Nat → List (Op Cb Opt Ev)) (progs : Nat → List (Op Cb Opt Ev)) (sched : List Nat) :
    ∀ (s s' : Sys Cb Opt Ev) (log : List (Nat × Op Cb Opt Ev)), Inv (fun c => (handler c).getD []) progs s log →
      execP eq handler after sched s = some s' →
      exec (fun c => (handler c).getD []) sched s = some s' ∨
      (Dead s' ∧ ∃ s1 t sched1 sched2, sched = sched1 ++ t :: sched2 ∧
        exec (fun c => (handler c).getD []) sched1 s = some s1 ∧ Panics eq handler s1 t ∧ s'.ls = s1.ls ∧
        (s'.trace = s1.trace ∨ ∃ e l todo k, s1.threads t = .calling e (l :: todo) :: k ∧
          s'.trace = s1.trace ++ [(l.eventListener, e)])) := by
  induction sched with
  | nil => intro s s' log _ h; exact .inl h
  | cons t ts ih =>
    intro s s' log hi h
    rw [execP] at h
    cases hs : stepP eq handler after t s with
    | none => rw [hs] at h; simp at h
    | some s1 =>
      rw [hs] at h
      simp only [Option.bind_some] at h
      rcases stepP_cases eq hr handler after t s s1 hs with ⟨_, hstep⟩ | ⟨hp, hl, hls, hth⟩
      · have hi1 : ∃ log', Inv (fun c => (handler c).getD []) progs s1 log' := by
          rcases inv_step _ progs s s1 log hi t hstep with ⟨h1, _⟩ | ⟨op, h1⟩
          · exact ⟨_, h1⟩
          · exact ⟨_, h1⟩
        obtain ⟨log', hi1⟩ := hi1
        rcases ih s1 s' log' hi1 h with h1 | ⟨h1, s2, t2, sc1, sc2, e1, e2, e3, e4⟩
        · left; rw [exec, hstep]; exact h1
        · right
          refine ⟨h1, s2, t2, t :: sc1, sc2, by rw [e1]; rfl, ?_, e3, e4⟩
          rw [exec, hstep]; exact e2
      · have hlock : s.lock = some t := by
          refine Classical.byContradiction (fun hn => ?_)
          rcases hi.free t hn with ⟨h1, _⟩ | ⟨ops, h1, _⟩ <;>
            rcases hp with ⟨e, l, todo, k, h2, _⟩ | ⟨c, k, h2, _⟩ <;> (rw [h1] at h2; simp at h2)
        have hd : Dead s1 := by
          refine ⟨by rw [hl, hlock]; simp, fun u => ?_⟩
          rw [hth]
          by_cases hu : u = t
          · subst hu; right; exact ⟨_, setThread_self _ _ _⟩
          · rw [setThread_ne _ _ _ _ hu]
            rcases hi.free u (by rw [hlock]; simpa using fun e => hu e.symm) with ⟨h1, _⟩ | ⟨ops, h1, _⟩
            · exact .inl h1
            · exact .inr ⟨ops, h1⟩
        have hst := dead_stuck eq handler after s1 hd ts s' h
        have hdead : Dead s' := by
          clear hst hs hp hl hls hth ih hi hlock
          induction ts generalizing s1 with
          | nil => injection h with h; subst h; exact hd
          | cons x xs ihx =>
            rw [execP] at h
            cases hx : stepP eq handler after x s1 with
            | none => rw [hx] at h; simp at h
            | some s2 => rw [hx] at h; exact ihx s2 h (dead_step eq handler after x s1 s2 hd hx).1
        right
        refine ⟨hdead, s, t, [], ts, rfl, rfl, hp, hst.1.trans hls, ?_⟩
        rw [hst.2.1]
        rcases hp with ⟨e, l, todo, k, h2, h3⟩ | ⟨c, k, h2, h3⟩
        · right
          refine ⟨e, l, todo, k, h2, ?_⟩
          rw [stepP, h2] at hs
          simp only [h3, Option.some.injEq] at hs
          rw [← hs]; rfl
        · left
          rw [stepP, h2] at hs
          simp only [(removeP_none eq c s.ls).2 h3, Option.some.injEq] at hs
          rw [← hs]; rfl

/-- C301 violated: for every history and every schedule of goroutines, once a listener or the comparison of a listener
panics in a call, no call on the target by anyone proceeds any more, although the panic is recovered from: nothing is
registered, removed or called in any continuation. -/
theorem C301_stuck_violated (eq : Cb → Cb → Option Bool) (hr : Right eq) (handler : Cb → Option (List (Op Cb Opt Ev)))
    (after : Nat → List (Op Cb Opt Ev)) (progs : Nat → List (Op Cb Opt Ev)) (sched : List Nat) (s s' : Sys Cb Opt Ev)
    (t : Nat) (h : execP eq handler after sched (start progs) = some s) (hp : Panics eq handler s t)
    (hs : stepP eq handler after t s = some s') :
    s'.threads t = [.prog (after t)] ∧ s'.ls = s.ls ∧ StuckForGood eq handler after s' := by
  rcases execP_cases eq hr handler after progs sched _ _ [] (inv_start _ progs) h with h1 | ⟨h1, _⟩
  · obtain ⟨log, hi⟩ := inv_exec _ progs sched _ _ _ (inv_start _ progs) h1
    rcases execP_cases eq hr handler after progs [t] s s' log hi (by rw [execP, hs]; rfl) with h2 | ⟨h2, _⟩
    · exfalso
      rcases stepP_cases eq hr handler after t s s' hs with ⟨hn, _⟩ | ⟨_, hl, _, hth⟩
      · exact hn hp
      · rw [exec] at h2
        cases hx : step (fun c => (handler c).getD []) t s with
        | none => rw [hx] at h2; simp at h2
        | some s2 =>
          rw [hx] at h2
          simp only [exec, Option.bind_some, Option.some.injEq] at h2
          subst h2
          have hself : s2.threads t = [.prog (after t)] := by rw [hth]; exact setThread_self _ _ _
          have hlock : s.lock = some t := by
            refine Classical.byContradiction (fun hn => ?_)
            rcases hi.free t hn with ⟨h1, _⟩ | ⟨ops, h1, _⟩ <;>
              rcases hp with ⟨e, l, todo, k, h2, _⟩ | ⟨c, k, h2, _⟩ <;> (rw [h1] at h2; simp at h2)
          rcases hp with ⟨e, l, todo, k, h2, _⟩ | ⟨c, k, h2, _⟩
          · rw [step, h2] at hx
            simp only [Option.some.injEq] at hx
            rw [← hx] at hself
            simp only [setThread_self] at hself
            simp at hself
          · rw [step, h2] at hx
            simp only [Option.some.injEq] at hx
            rw [← hx, hlock] at hl
            simp at hl
    · rcases stepP_cases eq hr handler after t s s' hs with ⟨hn, _⟩ | ⟨_, _, hls, hth⟩
      · exact absurd hp hn
      · exact ⟨by rw [hth]; exact setThread_self _ _ _, hls, dead_stuck eq handler after s' h2⟩
  · exfalso
    rcases h1.2 t with h2 | ⟨ops, h2⟩ <;>
      rcases hp with ⟨e, l, todo, k, h3, _⟩ | ⟨c, k, h3, _⟩ <;> (rw [h2] at h3; simp at h3)

/-- C301: as long as nothing panics, every schedule does exactly what it does in the model of C40 and C256; a
schedule in which something panicked has registered and called what it had until the panic, the panicking listener
being the last one called.  Missing: the target goes on after the panic (refuted: `C301_stuck_violated`). -/
theorem C301_until_panic_partial (eq : Cb → Cb → Option Bool) (hr : Right eq)
    (handler : Cb → Option (List (Op Cb Opt Ev))) (after : Nat → List (Op Cb Opt Ev))
    (progs : Nat → List (Op Cb Opt Ev)) (sched : List Nat) (s : Sys Cb Opt Ev)
    (h : execP eq handler after sched (start progs) = some s) :
    exec (fun c => (handler c).getD []) sched (start progs) = some s ∨
    ∃ s1 t sched1 sched2, sched = sched1 ++ t :: sched2 ∧
      exec (fun c => (handler c).getD []) sched1 (start progs) = some s1 ∧ Panics eq handler s1 t ∧ s.ls = s1.ls ∧
      (s.trace = s1.trace ∨ ∃ e l todo k, s1.threads t = .calling e (l :: todo) :: k ∧
        s.trace = s1.trace ++ [(l.eventListener, e)]) := by
  rcases execP_cases eq hr handler after progs sched _ _ [] (inv_start _ progs) h with h1 | ⟨_, h1⟩
  · exact .inl h1
  · exact .inr h1

/-- C301: listeners that do not panic and can be compared: no schedule panics, and every step is one of the model of
C40.
Missing: what follows a panic (refuted: `C301_stuck_violated`). -/
theorem C301_no_panic_partial (eq : Cb → Cb → Option Bool) (hr : Right eq) (he : ∀ a b, eq a b ≠ none)
    (handler : Cb → List (Op Cb Opt Ev)) (after : Nat → List (Op Cb Opt Ev)) (sched : List Nat) (s : Sys Cb Opt Ev) :
    execP eq (fun c => some (handler c)) after sched s = exec handler sched s := by
  have hstep : ∀ t (s : Sys Cb Opt Ev), stepP eq (fun c => some (handler c)) after t s = step handler t s := by
    intro t s
    rw [stepP, step]
    split <;> rename_i hk <;> rw [hk]
    next c k =>
      cases hm : removeP eq c s.ls with
      | some ls => rw [removeP_some eq hr c s.ls ls hm]
      | none =>
        obtain ⟨_, x, _, _, _, h3⟩ := (removeP_none eq c s.ls).1 hm
        exact absurd h3 (he _ _)
  induction sched generalizing s with
  | nil => rfl
  | cons t ts ih =>
    rw [execP, exec, hstep]
    cases step handler t s with
    | none => rfl
    | some s1 => exact ih s1

/-- Listener 7 panics; listeners from 100 on are functions. -/
def exHandler : Nat → Option (List (Op Nat Unit Unit)) := fun c => if c = 7 then none else some []
def exEq : Nat → Nat → Option Bool := goEq (fun c => if c < 100 then 0 else 1) (fun t => t == 0)
def exProgs : Nat → List (Op Nat Unit Unit) := fun t =>
  if t = 0 then [.add 3 (), .add 7 (), .dispatch ()] else if t = 1 then [.add 4 (), .dispatch ()] else []

example : ∃ s s' : Sys Nat Unit Unit, execP exEq exHandler (fun _ => [.dispatch ()]) [0, 0, 0, 0, 0, 0, 0, 0] (start exProgs) = some s ∧
    Panics exEq exHandler s 0 ∧ stepP exEq exHandler (fun _ => [.dispatch ()]) 0 s = some s' ∧
    s'.trace = [(3, ()), (7, ())] :=
  ⟨_, _, rfl, .inl ⟨(), ⟨7, ()⟩, [], _, rfl, rfl⟩, rfl, rfl⟩
example : ∃ s s' : Sys Nat Unit Unit, execP exEq exHandler (fun _ => []) [2, 2, 2]
      (start (fun t => if t = 2 then [.add 100 (), .remove 101] else [])) = some s ∧
    Panics exEq exHandler s 2 ∧ stepP exEq exHandler (fun _ => []) 2 s = some s' ∧ s'.ls = [⟨100, ()⟩] :=
  ⟨_, _, rfl, .inr ⟨101, _, rfl, [], ⟨100, ()⟩, [], rfl, by simp, rfl⟩, rfl, rfl⟩
example := C301_uncomparable_violated (fun c : Nat => if c < 100 then 0 else 1) (fun t => t == 0)
  [⟨3, ()⟩, ⟨100, ()⟩] 100 rfl
example : removeP exEq 3 ([⟨100, ()⟩, ⟨3, ()⟩] : List (Listener Nat Unit)) = some [⟨100, ()⟩] :=
  C301_comparable_partial _ _ _ 3 rfl
example : Right exEq := goEq_right _ _

end Memar.Event
