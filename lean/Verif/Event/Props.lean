import Verif.Event.Model

/-!
# C40: listeners are called once per registration, in order, for every history and schedule
-/

namespace Memar.Event
open Memar

set_option linter.unusedSectionVars false
variable {Cb Opt Ev : Type} [DecidableEq Cb]

theorem removeLoop_eq (c : Cb) (ls : List (Listener Cb Opt)) :
    ∀ (fuel i : Nat), ls.length ≤ i + fuel → removeLoop ls c i fuel
      = ls.take i ++ (ls.drop i).eraseP (fun l => l.eventListener = c) := by
  intro fuel
  induction fuel with
  | zero =>
    intro i h
    rw [removeLoop, List.take_of_length_le (by omega), List.drop_of_length_le (by omega)]
    simp
  | succ fuel ih =>
    intro i h
    rw [removeLoop]
    split
    · next hi =>
      have hd : ls.drop i = ls[i] :: ls.drop (i + 1) := List.drop_eq_getElem_cons hi
      split
      · next hc =>
        have hg : goCopy (ls.drop i) (ls.drop (i + 1)) = ls.drop (i + 1) ++ ls.drop (ls.length - 1) := by
          rw [goCopy, List.take_of_length_le (by simp; omega), List.drop_drop]
          congr 2
          simp; omega
        rw [hg, hd, List.eraseP_cons_of_pos (by simpa using hc), ← List.append_assoc,
          List.take_left' (by simp; omega)]
      · next hc =>
        rw [ih (i + 1) (by omega), hd, List.eraseP_cons_of_neg (by simpa using hc),
          List.take_succ_eq_append_getElem hi, List.append_assoc]
        rfl
    · rw [List.take_of_length_le (by omega), List.drop_of_length_le (by omega)]
      simp

/-- C40: removing a callback takes out its earliest registration and nothing else; a callback that is
not registered changes nothing. -/
theorem C40_remove_earliest (ls : List (Listener Cb Opt)) (c : Cb) :
    (c ∉ dispatch ls ∧ remove ls c = ls) ∨
    ∃ pre o post, ls = pre ++ ⟨c, o⟩ :: post ∧ c ∉ dispatch pre ∧ remove ls c = pre ++ post := by
  have he : remove ls c = ls.eraseP (fun l => l.eventListener = c) := by
    rw [remove, removeLoop_eq c ls _ _ (by omega)]; simp
  by_cases h : c ∈ dispatch ls
  · right
    have : ∃ a ∈ ls, (fun l : Listener Cb Opt => decide (l.eventListener = c)) a = true := by
      simp only [dispatch, List.mem_map] at h
      obtain ⟨a, ha, hc⟩ := h
      exact ⟨a, ha, by simpa using hc⟩
    obtain ⟨x, ha, hx⟩ := this
    obtain ⟨a, l1, l2, h1, h2, h3, h4⟩ := List.exists_of_eraseP
      (p := fun l : Listener Cb Opt => decide (l.eventListener = c)) ha hx
    refine ⟨l1, a.options, l2, ?_, ?_, ?_⟩
    · have : a = ⟨c, a.options⟩ := by
        cases a; simp only [decide_eq_true_eq] at h2; simp only [h2]
      rw [h3, ← this]
    · simp only [dispatch, List.mem_map, not_exists, not_and]
      intro y hy
      have := h1 y hy
      simpa using this
    · rw [he, h4]
  · left
    refine ⟨h, ?_⟩
    rw [he, List.eraseP_of_forall_not]
    intro a ha
    simp only [dispatch, List.mem_map, not_exists, not_and] at h
    simpa using h a ha

/-- Specification: the registrations made in a history, in order. -/
def adds : List (Op Cb Opt Ev) → List (Listener Cb Opt)
  | [] => []
  | .add c o :: h => ⟨c, o⟩ :: adds h
  | _ :: h => adds h

/-- Specification: how many registrations of `c` are left after a history: a registration adds one,
a removal takes one away if there is any. -/
def balance (c : Cb) (h : List (Op Cb Opt Ev)) : Nat :=
  h.foldl (fun n op => match op with
    | .add d _ => if d = c then n + 1 else n
    | .remove d => if d = c then n - 1 else n
    | .dispatch _ => n) 0

theorem adds_append (a b : List (Op Cb Opt Ev)) : adds (a ++ b) = adds a ++ adds b := by
  induction a with
  | nil => rfl
  | cons x a ih => cases x <;> simp [adds, ih]

theorem run_concat (h : List (Op Cb Opt Ev)) (op : Op Cb Opt Ev) : run (h ++ [op]) = op.apply (run h) := by
  simp [run, List.foldl_append]

/-- Induction over a history from its end. -/
theorem history_induction {α} {P : List α → Prop} (nil : P [])
    (concat : ∀ h x, P h → P (h ++ [x])) (h : List α) : P h := by
  have : ∀ n (l : List α), l.length = n → P l := by
    intro n
    induction n with
    | zero => intro l hl; have := List.length_eq_zero_iff.1 hl; subst this; exact nil
    | succ n ih =>
      intro l hl
      have hne : l ≠ [] := by intro e; subst e; simp at hl
      rw [← List.dropLast_concat_getLast hne]
      exact concat _ _ (ih _ (by simp [hl]))
  exact this h.length h rfl

/-- C40: for every history, a dispatch calls listeners in the order of their registration. -/
theorem C40_registration_order (h : List (Op Cb Opt Ev)) : (run h).Sublist (adds h) := by
  induction h using history_induction with
  | nil => exact List.Sublist.refl _
  | concat h op ih =>
    rw [run_concat, adds_append]
    cases op with
    | add c o => exact List.Sublist.append ih (List.Sublist.refl _)
    | dispatch e => simpa [adds, Op.apply] using ih
    | remove c =>
      simp only [Op.apply, adds, List.append_nil]
      rcases C40_remove_earliest (run h) c with ⟨_, h1⟩ | ⟨pre, o, post, h1, _, h2⟩
      · rw [h1]; exact ih
      · rw [h2]
        refine List.Sublist.trans ?_ ih
        rw [h1]
        exact List.Sublist.append (List.Sublist.refl _) (List.sublist_cons_self _ _)

/-- C40: for every history and callback, a dispatch makes as many calls of it as there are
registrations left, and those are its latest ones. -/
theorem C40_calls_each (h : List (Op Cb Opt Ev)) (c : Cb) :
    (run h).filter (fun l => l.eventListener = c)
      = ((adds h).filter (fun l => l.eventListener = c)).drop
        (((adds h).filter (fun l => l.eventListener = c)).length - balance c h) ∧
    (dispatch (run h)).count c = balance c h ∧
    balance c h ≤ ((adds h).filter (fun l => l.eventListener = c)).length := by
  suffices hs : (run h).filter (fun l => l.eventListener = c)
      = ((adds h).filter (fun l => l.eventListener = c)).drop
        (((adds h).filter (fun l => l.eventListener = c)).length - balance c h) ∧
      balance c h ≤ ((adds h).filter (fun l => l.eventListener = c)).length by
    refine ⟨hs.1, ?_, hs.2⟩
    have : (dispatch (run h)).count c = ((run h).filter (fun l => l.eventListener = c)).length := by
      rw [dispatch, List.count, List.countP_map, List.countP_eq_length_filter]
      rfl
    rw [this, hs.1, List.length_drop]
    omega
  induction h using history_induction with
  | nil => exact ⟨rfl, Nat.le_refl _⟩
  | concat h op ih =>
    obtain ⟨ih1, ih2⟩ := ih
    rw [run_concat, adds_append]
    have hb : balance c (h ++ [op]) = match op with
      | .add d _ => if d = c then balance c h + 1 else balance c h
      | .remove d => if d = c then balance c h - 1 else balance c h
      | .dispatch _ => balance c h := by
      rw [balance, List.foldl_append]; rfl
    rw [hb]
    cases op with
    | dispatch e => simpa [adds, Op.apply] using ⟨ih1, ih2⟩
    | add d o =>
      simp only [adds, Op.apply, add, List.filter_append]
      by_cases hd : d = c
      · subst hd
        simp only [decide_true, List.filter_cons_of_pos, List.filter_nil, List.length_append,
          List.length_singleton, if_true]
        refine ⟨?_, by omega⟩
        rw [ih1, List.drop_append_of_le_length (by omega)]
        congr 2
        omega
      · simp only [hd, decide_false, Bool.false_eq_true, not_false_eq_true, List.filter_cons_of_neg,
          List.filter_nil, List.append_nil, if_false]
        exact ⟨ih1, ih2⟩
    | remove d =>
      simp only [adds, Op.apply, List.append_nil]
      have hlen : ((run h).filter (fun l => l.eventListener = c)).length = balance c h := by
        rw [ih1, List.length_drop]; omega
      rcases C40_remove_earliest (run h) d with ⟨h0, h1⟩ | ⟨pre, o, post, h1, h0, h2⟩
      · rw [h1]
        by_cases hd : d = c
        · subst hd
          have hz : (run h).filter (fun l => l.eventListener = d) = [] := by
            rw [List.filter_eq_nil_iff]
            intro a ha
            simp only [dispatch, List.mem_map, not_exists, not_and] at h0
            simpa using h0 a ha
          have : balance d h = 0 := by rw [← hlen, hz]; rfl
          rw [if_pos rfl, this]
          rw [this] at ih1
          exact ⟨ih1, by omega⟩
        · rw [if_neg hd]; exact ⟨ih1, ih2⟩
      · rw [h2]
        by_cases hd : d = c
        · subst hd
          have hz : pre.filter (fun l => l.eventListener = d) = [] := by
            rw [List.filter_eq_nil_iff]
            intro a ha
            simp only [dispatch, List.mem_map, not_exists, not_and] at h0
            simpa using h0 a ha
          rw [h1] at ih1 hlen
          simp only [List.filter_append, hz, List.nil_append, decide_true, List.filter_cons_of_pos,
            List.length_cons] at ih1 hlen ⊢
          rw [if_pos trivial]
          refine ⟨?_, by omega⟩
          have := congrArg (List.drop 1) ih1
          simp only [List.drop_succ_cons, List.drop_zero, List.drop_drop] at this
          rw [this]
          congr 1
          omega
        · rw [if_neg hd]
          refine ⟨?_, ih2⟩
          rw [← ih1, h1]
          simp [List.filter_append, hd]

example : dispatch (run ([.add 1 (), .add 2 (), .add 1 (), .remove 1, .dispatch (), .remove 3]
    : List (Op Nat Unit Unit))) = [2, 1] := by decide

/-! ## Every schedule of goroutines -/

/-- Specification: the listeners and the calls made when a sequence of operations runs alone. -/
def serial (h : List (Op Cb Opt Ev)) : List (Listener Cb Opt) × List (Cb × Ev) :=
  h.foldl (fun s op => match op with
    | .dispatch e => (s.1, s.2 ++ (dispatch s.1).map (·, e))
    | op => (op.apply s.1, s.2)) ([], [])

theorem serial_fst (h : List (Op Cb Opt Ev)) : (serial h).1 = run h := by
  induction h using history_induction with
  | nil => rfl
  | concat h op ih =>
    rw [run_concat, serial, List.foldl_append, List.foldl_cons, List.foldl_nil, ← ih]
    cases op <;> rfl

/-- The operations of goroutine `t` in a log. -/
def ofThread (log : List (Nat × Op Cb Opt Ev)) (t : Nat) : List (Op Cb Opt Ev) :=
  (log.filter (fun p => p.1 = t)).map (·.2)

theorem ofThread_concat (log : List (Nat × Op Cb Opt Ev)) (t u : Nat) (op : Op Cb Opt Ev) :
    ofThread (log ++ [(u, op)]) t = if u = t then ofThread log t ++ [op] else ofThread log t := by
  by_cases h : u = t <;> simp [ofThread, List.filter_append, h]

structure Inv (handler : Cb → List (Op Cb Opt Ev)) (progs : Nat → List (Op Cb Opt Ev))
    (s : Sys Cb Opt Ev) (log : List (Nat × Op Cb Opt Ev)) : Prop where
  listeners : s.ls = (serial (log.map (·.2))).1
  free : ∀ t, s.lock ≠ some t → (s.threads t = [] ∧ progs t = ofThread log t) ∨
    ∃ ops, s.threads t = [.prog ops] ∧ progs t = ofThread log t ++ ops
  unlocked : s.lock = none → s.trace = (serial (log.map (·.2))).2
  locked : ∀ t, s.lock = some t →
    (∃ op rest, s.threads t = [.body op, .prog rest] ∧ progs t = ofThread log t ++ op :: rest ∧
      s.trace = (serial (log.map (·.2))).2) ∨
    (∃ e todo rest, (s.threads t = [.calling e todo, .prog rest] ∨
        ∃ c, s.threads t = [.prog (handler c), .calling e todo, .prog rest]) ∧
      progs t = ofThread log t ++ .dispatch e :: rest ∧
      s.trace ++ todo.map (fun l => (l.eventListener, e))
        = (serial (log.map (·.2))).2 ++ (dispatch s.ls).map (·, e))

theorem inv_start (handler : Cb → List (Op Cb Opt Ev)) (progs : Nat → List (Op Cb Opt Ev)) :
    Inv handler progs (start progs) [] where
  listeners := rfl
  free := fun t _ => .inr ⟨progs t, rfl, rfl⟩
  unlocked := fun _ => rfl
  locked := fun t h => by simp [start] at h

/-- A goroutine that does not hold the lock finished or is about to make a call. -/
theorem setThread_self (ts : Nat → List (Frame Cb Opt Ev)) (t : Nat) (k : List (Frame Cb Opt Ev)) :
    setThread ts t k t = k := if_pos rfl
theorem setThread_ne (ts : Nat → List (Frame Cb Opt Ev)) (t u : Nat) (k : List (Frame Cb Opt Ev))
    (h : u ≠ t) : setThread ts t k u = ts u := if_neg h

/-- Releasing the lock at the end of an operation. -/
theorem inv_release (handler : Cb → List (Op Cb Opt Ev)) (progs : Nat → List (Op Cb Opt Ev))
    (s : Sys Cb Opt Ev) (log : List (Nat × Op Cb Opt Ev)) (hi : Inv handler progs s log) (t : Nat)
    (hl : s.lock = some t) (op : Op Cb Opt Ev) (rest : List (Op Cb Opt Ev)) (s' : Sys Cb Opt Ev)
    (hp : progs t = ofThread log t ++ op :: rest) (h1 : s'.lock = none)
    (h2 : s'.threads = setThread s.threads t [.prog rest])
    (h3 : (s'.ls, s'.trace) = serial ((log ++ [(t, op)]).map (·.2))) :
    Inv handler progs s' (log ++ [(t, op)]) where
  listeners := by rw [← h3]
  free := by
    intro u _
    rw [h2, ofThread_concat]
    by_cases hu : u = t
    · subst hu
      right
      refine ⟨rest, setThread_self _ _ _, ?_⟩
      rw [if_pos rfl, hp]; simp
    · rw [setThread_ne _ _ _ _ hu, if_neg (fun e => hu e.symm)]
      exact hi.free u (by rw [hl]; simpa using fun e => hu e.symm)
  unlocked := by intro _; rw [← h3]
  locked := by intro u hu; rw [h1] at hu; simp at hu

theorem inv_step (handler : Cb → List (Op Cb Opt Ev)) (progs : Nat → List (Op Cb Opt Ev))
    (s s' : Sys Cb Opt Ev) (log : List (Nat × Op Cb Opt Ev)) (hi : Inv handler progs s log) (t : Nat)
    (hs : step handler t s = some s') :
    (Inv handler progs s' log ∧ (s.lock = some t → s'.lock = some t)) ∨
      ∃ op, Inv handler progs s' (log ++ [(t, op)]) := by
  by_cases hl : s.lock = some t
  · rcases hi.locked t hl with ⟨op, rest, h1, h2, h3⟩ | ⟨e, todo, rest, h1, h2, h3⟩
    · cases op with
      | add c o =>
        right
        refine ⟨.add c o, ?_⟩
        simp only [step, h1, Option.some.injEq] at hs
        subst hs
        refine inv_release handler progs s log hi t hl _ rest _ h2 rfl rfl ?_
        rw [List.map_append, serial, List.foldl_append, ← serial]
        simp [hi.listeners, h3, Op.apply]
      | remove c =>
        right
        refine ⟨.remove c, ?_⟩
        simp only [step, h1, Option.some.injEq] at hs
        subst hs
        refine inv_release handler progs s log hi t hl _ rest _ h2 rfl rfl ?_
        rw [List.map_append, serial, List.foldl_append, ← serial]
        simp [hi.listeners, h3, Op.apply]
      | dispatch e =>
        left
        simp only [step, h1, Option.some.injEq] at hs
        subst hs
        refine ⟨⟨hi.listeners, ?_, ?_, ?_⟩, fun _ => hl⟩
        · intro u hu
          have hut : u ≠ t := by intro e; subst e; exact hu hl
          simp only [setThread_ne _ _ _ _ hut]
          exact hi.free u hu
        · intro h; rw [hl] at h; simp at h
        · intro u hu
          rw [hl] at hu
          injection hu with hu
          subst hu
          right
          refine ⟨e, s.ls, rest, .inl (setThread_self _ _ _), h2, ?_⟩
          simp [h3, dispatch, List.map_map, Function.comp_def]
    · rcases h1 with h1 | ⟨c, h1⟩
      · cases todo with
        | nil =>
          right
          refine ⟨.dispatch e, ?_⟩
          simp only [step, h1, Option.some.injEq] at hs
          subst hs
          refine inv_release handler progs s log hi t hl _ rest _ h2 rfl rfl ?_
          simp only [List.map_nil, List.append_nil] at h3
          rw [List.map_append, serial, List.foldl_append, ← serial]
          simp [h3, hi.listeners]
        | cons l todo =>
          left
          simp only [step, h1, Option.some.injEq] at hs
          subst hs
          refine ⟨⟨hi.listeners, ?_, ?_, ?_⟩, fun _ => hl⟩
          · intro u hu
            have hut : u ≠ t := by intro e; subst e; exact hu hl
            simp only [setThread_ne _ _ _ _ hut]
            exact hi.free u hu
          · intro h; rw [hl] at h; simp at h
          · intro u hu
            rw [hl] at hu
            injection hu with hu
            subst hu
            right
            refine ⟨e, todo, rest, .inr ⟨l.eventListener, setThread_self _ _ _⟩, h2, ?_⟩
            simpa using h3
      · cases hc : handler c with
        | cons op r =>
          rw [hc] at h1
          simp [step, h1, hl] at hs
        | nil =>
          rw [hc] at h1
          left
          simp only [step, h1, Option.some.injEq] at hs
          subst hs
          refine ⟨⟨hi.listeners, ?_, ?_, ?_⟩, fun _ => hl⟩
          · intro u hu
            have hut : u ≠ t := by intro e; subst e; exact hu hl
            simp only [setThread_ne _ _ _ _ hut]
            exact hi.free u hu
          · intro h; rw [hl] at h; simp at h
          · intro u hu
            rw [hl] at hu
            injection hu with hu
            subst hu
            right
            exact ⟨e, todo, rest, .inl (setThread_self _ _ _), h2, h3⟩
  · rcases hi.free t hl with ⟨h1, _⟩ | ⟨ops, h1, h2⟩
    · simp [step, h1] at hs
    · left
      cases ops with
      | nil =>
        simp only [step, h1, Option.some.injEq] at hs
        subst hs
        refine ⟨⟨hi.listeners, ?_, hi.unlocked, ?_⟩, fun h => h⟩
        · intro u hu
          by_cases hut : u = t
          · subst hut
            left
            exact ⟨setThread_self _ _ _, by simpa using h2⟩
          · simp only [setThread_ne _ _ _ _ hut]
            exact hi.free u hu
        · intro u hu
          have hut : u ≠ t := by intro e; subst e; exact hl hu
          simp only [setThread_ne _ _ _ _ hut]
          exact hi.locked u hu
      | cons op rest =>
        by_cases hn : s.lock = none
        · simp only [step, h1, if_pos hn, Option.some.injEq] at hs
          subst hs
          refine ⟨⟨hi.listeners, ?_, ?_, ?_⟩, fun h => rfl⟩
          · intro u hu
            have hut : u ≠ t := by intro e; subst e; exact hu rfl
            simp only [setThread_ne _ _ _ _ hut]
            exact hi.free u (by rw [hn]; simp)
          · intro h; simp at h
          · intro u hu
            injection hu with hu
            subst hu
            left
            exact ⟨op, rest, setThread_self _ _ _, h2, hi.unlocked hn⟩
        · simp [step, h1, hn] at hs

theorem inv_exec (handler : Cb → List (Op Cb Opt Ev)) (progs : Nat → List (Op Cb Opt Ev))
    (sched : List Nat) : ∀ (s s' : Sys Cb Opt Ev) (log : List (Nat × Op Cb Opt Ev)),
      Inv handler progs s log → exec handler sched s = some s' → ∃ log', Inv handler progs s' log' := by
  induction sched with
  | nil => intro s s' log hi h; injection h with h; subst h; exact ⟨log, hi⟩
  | cons t sched ih =>
    intro s s' log hi h
    rw [exec] at h
    obtain ⟨s1, hs, h⟩ := Option.bind_eq_some_iff.1 h
    rcases inv_step handler progs s s1 log hi t hs with ⟨hi', _⟩ | ⟨op, hi'⟩
    · exact ih _ _ _ hi' h
    · exact ih _ _ _ hi' h

/-- C40: for every schedule of any number of goroutines and whenever no call is going on, the calls
made on the target have an order in which they could have run one after the other: the listeners
and every callback call, in order, are those of that order, and each goroutine's calls stand in it
in program order, all of them if it has finished. -/
theorem C40_every_schedule (handler : Cb → List (Op Cb Opt Ev)) (progs : Nat → List (Op Cb Opt Ev))
    (sched : List Nat) (s : Sys Cb Opt Ev) (h : exec handler sched (start progs) = some s)
    (hl : s.lock = none) :
    ∃ log : List (Nat × Op Cb Opt Ev), (s.ls, s.trace) = serial (log.map (·.2)) ∧
      ∀ t, ∃ rest, progs t = ofThread log t ++ rest ∧ (s.threads t = [] → rest = []) := by
  obtain ⟨log, hi⟩ := inv_exec handler progs sched _ s [] (inv_start handler progs) h
  refine ⟨log, by rw [hi.listeners, hi.unlocked hl], ?_⟩
  intro t
  rcases hi.free t (by rw [hl]; simp) with ⟨h1, h2⟩ | ⟨ops, h1, h2⟩
  · exact ⟨[], by simpa using h2, fun _ => rfl⟩
  · exact ⟨ops, h2, fun e => by rw [h1] at e; simp at e⟩

example : (exec (fun _ => []) [0, 0, 1, 1, 1, 1, 1] (start (Cb := Nat) (Opt := Unit) (Ev := Nat)
    fun t => if t = 0 then [.add 7 ()] else [.dispatch 5])).map (·.trace) = some [(7, 5)] := by decide

/-- C40: if no callback calls the target, the goroutines never block each other for ever: whenever
one has not finished, some goroutine can move. -/
theorem C40_no_deadlock (progs : Nat → List (Op Cb Opt Ev)) (sched : List Nat) (s : Sys Cb Opt Ev)
    (h : exec (fun _ => []) sched (start progs) = some s) (t : Nat) (ht : s.threads t ≠ []) :
    ∃ u s', step (fun _ => []) u s = some s' := by
  obtain ⟨log, hi⟩ := inv_exec _ progs sched _ s [] (inv_start _ progs) h
  cases hl : s.lock with
  | none =>
    rcases hi.free t (by rw [hl]; simp) with ⟨h1, _⟩ | ⟨ops, h1, _⟩
    · exact absurd h1 ht
    · refine ⟨t, ?_⟩
      cases ops with
      | nil => exact ⟨_, by rw [step, h1]⟩
      | cons op rest => exact ⟨_, by rw [step, h1]; exact if_pos hl⟩
  | some u =>
    refine ⟨u, ?_⟩
    rcases hi.locked u hl with ⟨op, rest, h1, _⟩ | ⟨e, todo, rest, h1 | ⟨c, h1⟩, _⟩
    · cases op <;> exact ⟨_, by rw [step, h1]⟩
    · cases todo <;> exact ⟨_, by rw [step, h1]⟩
    · exact ⟨_, by rw [step, h1]⟩

example := C40_no_deadlock (Cb := Nat) (Opt := Unit) (Ev := Nat) (fun t => if t = 0 then [.add 7 ()] else [.dispatch 5]) [0, 0, 1] _ rfl
  1 (by simp [setThread])

/-- C256: a callback that calls the target it is called by never returns, and no call on that target
ends any more: in every continuation its goroutine stays where it is and holds the lock. -/
theorem C256_reentrant_violated (handler : Cb → List (Op Cb Opt Ev)) (progs : Nat → List (Op Cb Opt Ev))
    (sched : List Nat) (s : Sys Cb Opt Ev) (h : exec handler sched (start progs) = some s) (t : Nat)
    (op : Op Cb Opt Ev) (r : List (Op Cb Opt Ev)) (e : Ev) (todo : List (Listener Cb Opt))
    (k : List (Frame Cb Opt Ev)) (ht : s.threads t = .prog (op :: r) :: .calling e todo :: k)
    (sched' : List Nat) (s' : Sys Cb Opt Ev) (h' : exec handler sched' s = some s') :
    s'.threads t = s.threads t ∧ s'.lock = some t ∧ s'.ls = s.ls ∧ s'.trace = s.trace := by
  obtain ⟨log, hi⟩ := inv_exec handler progs sched _ s [] (inv_start handler progs) h
  have hl : s.lock = some t := by
    apply Decidable.byContradiction
    intro hl
    rcases hi.free t hl with ⟨h1, _⟩ | ⟨ops, h1, _⟩
    · rw [h1] at ht; simp at ht
    · rw [h1] at ht; simp at ht
  clear h
  induction sched' generalizing s log with
  | nil => injection h' with h'; subst h'; exact ⟨rfl, hl, rfl, rfl⟩
  | cons u sched' ih =>
    rw [exec] at h'
    obtain ⟨s1, hs, h'⟩ := Option.bind_eq_some_iff.1 h'
    have hut : u ≠ t := by
      intro e; subst e
      simp [step, ht, hl] at hs
    have hlu : s.lock ≠ some u := by rw [hl]; simpa using fun e => hut e.symm
    have key : s1.threads t = s.threads t ∧ s1.lock = s.lock ∧ s1.ls = s.ls ∧ s1.trace = s.trace := by
      rcases hi.free u hlu with ⟨h1, _⟩ | ⟨ops, h1, _⟩
      · simp [step, h1] at hs
      · cases ops with
        | nil =>
          simp only [step, h1, Option.some.injEq] at hs
          subst hs
          exact ⟨setThread_ne _ _ _ _ (fun e => hut e.symm), rfl, rfl, rfl⟩
        | cons o rest => simp [step, h1, hl] at hs
    obtain ⟨k1, k2, k3, k4⟩ := key
    have hi1 : ∃ log', Inv handler progs s1 log' := by
      rcases inv_step handler progs s s1 log hi u hs with ⟨hi', _⟩ | ⟨op, hi'⟩
      · exact ⟨_, hi'⟩
      · exact ⟨_, hi'⟩
    obtain ⟨log1, hi1⟩ := hi1
    have := ih s1 (by rw [k1]; exact ht) h' log1 hi1 (by rw [k2]; exact hl)
    rw [k1, k3, k4] at this
    exact this

/-- A listener that removes itself when called reaches that state. -/
example : ∃ s, exec (fun c => [Op.remove c]) [0, 0, 0, 0, 0]
    (start (Cb := Nat) (Opt := Unit) (Ev := Nat) fun _ => [.add 7 (), .dispatch 5]) = some s ∧
    s.threads 0 = .prog [.remove 7] :: .calling 5 [] :: [.prog []] := ⟨_, rfl, rfl⟩

end Memar.Event
