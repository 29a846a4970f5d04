import Verif.Timer.WheelStopMany

/-!
# C299, C300: many calls of Start and Stop of one timing wheel
-/

namespace Memar.Timer.WheelMany

/-! ## Specification -/

/-- A call of `Stop` that was told, or is about to answer, that it stopped the wheel. -/
def K.told : K → Bool
  | .halt false => true
  | .done false => true
  | _ => false

/-- How often `Start` was called in a schedule. -/
def starts (evs : List Ev) : Nat := evs.countP (· == .newStart)

/-- The goroutine has been told to end. -/
def G.ending : G → Bool
  | .received => true
  | .closing => true
  | .leaving => true
  | .done => true
  | _ => false

/-! ## Schedules -/

theorem run_append (s : St) (a b : List Ev) : run s (a ++ b) = (run s a).bind fun s' => run s' b := by
  induction a generalizing s with
  | nil => rfl
  | cons e t ih =>
    simp only [List.cons_append, run]
    cases step s e with
    | ok s' => exact ih s'
    | _ => rfl

theorem run_inv (P : St → Prop) (Q : Ev → Prop) (hP : ∀ s e s', P s → Q e → step s e = .ok s' → P s') (evs : List Ev)
    (hQ : ∀ e ∈ evs, Q e) : ∀ s s', P s → run s evs = some s' → P s' := by
  induction evs with
  | nil => intro s s' h hr; cases hr; exact h
  | cons e t ih =>
    intro s s' h hr
    simp only [run] at hr
    cases he : step s e with
    | blocked => rw [he] at hr; cases hr
    | panic => rw [he] at hr; cases hr
    | ok s1 =>
      rw [he] at hr
      exact ih (fun e he => hQ e (by simp [he])) s1 s' (hP s e s1 h (hQ e (by simp)) he) hr

theorem told_set {ks : List K} {i : Nat} {k k' : K} (h : ks[i]? = some k) :
    (ks.set i k').countP K.told + (if k.told then 1 else 0) = ks.countP K.told + (if k'.told then 1 else 0) := by
  obtain ⟨hi, e⟩ := List.getElem?_eq_some_iff.mp h
  rw [List.countP_set hi, e]
  have : (if k.told = true then 1 else 0) ≤ ks.countP K.told := by
    split
    · exact List.countP_pos_iff.mpr ⟨k, by rw [← e]; exact List.getElem_mem hi, by assumption⟩
    · omega
  omega

/-! ## One goroutine -/

/-- What a wheel looks like that was started at most once: how many calls were told that they stopped it, and what became of
the channel, follow from where its goroutine is. -/
def One (s : St) : Prop :=
  match s.gs with
  | [] => s.ks.countP K.told = 0 ∧ s.field = true ∧ s.closed = false
  | [g] =>
    match g with
    | .begin | .atSelect | .running => s.ks.countP K.told = 0 ∧ s.field = true ∧ s.closed = false
    | .parked c => c = true ∧ s.ks.countP K.told = 0 ∧ s.field = true ∧ s.closed = false
    | .received => s.ks.countP K.told = 1 ∧ s.field = true ∧ s.closed = false
    | .closing => s.ks.countP K.told = 1 ∧ s.field = true ∧ s.closed = true
    | .leaving | .done => s.ks.countP K.told = 1 ∧ s.field = false ∧ s.closed = true
  | _ => False

theorem one_of_told {s s' : St} (h : One s) (h1 : s'.gs = s.gs) (h2 : s'.field = s.field) (h3 : s'.closed = s.closed)
    (h4 : s'.ks.countP K.told = s.ks.countP K.told) : One s' := by
  unfold One at h ⊢
  rw [h1, h2, h3, h4]
  exact h

theorem idx_one {g g' : G} {i : Nat} (h : [g][i]? = some g') : i = 0 ∧ g' = g := by
  cases i with
  | zero => simp at h; exact ⟨rfl, h.symm⟩
  | succ n => simp at h

theorem one_start (s : St) (h : One s) (hg : s.gs = []) : One { s with gs := s.gs ++ [.begin] } := by
  unfold One at h ⊢
  rw [hg] at h ⊢
  exact h

theorem one_step (s : St) (e : Ev) (s' : St) (h : One s) (he : e ≠ .newStart) (hs : step s e = .ok s') : One s' := by
  obtain ⟨field, closed, ticker, signal, served, gs, ks⟩ := s
  cases e with
  | newStart => exact absurd rfl he
  | newStop =>
    cases hs
    exact one_of_told h rfl rfl rfl (by simp [K.told])
  | fire to =>
    simp only [step, fireStep] at hs
    split at hs
    · cases to with
      | some j =>
        dsimp only at hs
        split at hs
        · rename_i c hj
          cases hs
          match gs, h with
          | [], h => simp at hj
          | [g], h =>
            obtain ⟨rfl, rfl⟩ := idx_one hj
            exact h.2
        · cases hs
      | none =>
        dsimp only at hs
        split at hs
        · cases hs
        · cases hs; exact one_of_told h rfl rfl rfl rfl
    · cases hs
  | go i pick =>
    match gs, h with
    | [], h => simp [step, goStep] at hs
    | [g], h =>
      cases i with
      | succ n => simp [step, goStep] at hs
      | zero =>
        simp only [step, goStep, List.getElem?_cons_zero, List.set_cons_zero] at hs
        cases g with
        | begin => cases hs; exact h
        | atSelect =>
          obtain ⟨h1, h2, h3⟩ := h
          dsimp only at h1 h2 h3
          subst h2 h3
          simp only [Bool.and_false, Bool.false_and, Bool.false_eq_true, if_false] at hs
          split at hs
          · cases hs; exact ⟨h1, rfl, rfl⟩
          · cases hs; exact ⟨rfl, h1, rfl, rfl⟩
        | parked c => cases hs
        | running => cases hs; exact h
        | received =>
          obtain ⟨h1, h2, h3⟩ := h
          dsimp only at h1 h2 h3
          subst h2 h3
          simp only [Bool.not_false, Bool.and_self, if_true] at hs
          cases hs
          exact ⟨h1, rfl, rfl⟩
        | closing => cases hs; exact ⟨h.1, rfl, h.2.2⟩
        | leaving => cases hs; exact h
        | done => cases hs
  | st i to =>
    simp only [step, stStep] at hs
    split at hs
    · cases hs
    · rename_i hk
      split at hs <;> (cases hs; exact one_of_told h rfl rfl rfl (by have := told_set (k' := .select) hk; have := told_set (k' := .done true) hk; simp [K.told] at *; omega))
    · rename_i hk
      split at hs
      · split at hs
        · cases hs
        · cases to with
          | some j =>
            dsimp only at hs
            split at hs
            · rename_i hj
              cases hs
              match gs, h with
              | [], h => simp at hj
              | [g], h =>
                obtain ⟨rfl, rfl⟩ := idx_one hj
                obtain ⟨-, h1, h2, h3⟩ := h
                have := told_set (k' := .halt false) hk
                simp [K.told] at this
                refine ⟨?_, h2, h3⟩
                dsimp only at h1 ⊢
                unfold K.told at *
                omega
            · cases hs
          | none =>
            dsimp only at hs
            split at hs
            · cases hs
            · cases hs; exact one_of_told h rfl rfl rfl (by have := told_set (k' := .halt true) hk; simp [K.told] at *; omega)
      · cases hs; exact one_of_told h rfl rfl rfl (by have := told_set (k' := .halt true) hk; simp [K.told] at *; omega)
    · rename_i a hk
      cases hs
      exact one_of_told h rfl rfl rfl (by have := told_set (k' := .done a) hk; cases a <;> simp [K.told] at * <;> omega)
    · cases hs


theorem step_length (s : St) (e : Ev) (s' : St) (he : e ≠ .newStart) (hs : step s e = .ok s') : s'.gs.length = s.gs.length := by
  cases e with
  | newStart => exact absurd rfl he
  | newStop => cases hs; rfl
  | fire to =>
    simp only [step, fireStep] at hs
    repeat' split at hs
    all_goals first | (cases hs; done) | (cases hs; simp)
  | go i pick =>
    simp only [step, goStep] at hs
    repeat' split at hs
    all_goals first | (cases hs; done) | (cases hs; simp)
  | st i to =>
    simp only [step, stStep] at hs
    repeat' split at hs
    all_goals first | (cases hs; done) | (cases hs; simp)

theorem run_one (evs : List Ev) : ∀ s s', One s → starts evs + s.gs.length ≤ 1 → run s evs = some s' → One s' := by
  induction evs with
  | nil => intro s s' h _ hr; cases hr; exact h
  | cons e t ih =>
    intro s s' h hn hr
    simp only [run] at hr
    cases he : step s e with
    | blocked => rw [he] at hr; cases hr
    | panic => rw [he] at hr; cases hr
    | ok s1 =>
      rw [he] at hr
      dsimp only at hr
      by_cases hst : e = .newStart
      · subst hst
        simp only [starts, List.countP_cons] at hn
        simp at hn
        have hg : s.gs = [] := List.eq_nil_of_length_eq_zero (by omega)
        simp only [step, Out.ok.injEq] at he
        refine ih s1 s' (he ▸ one_start s h hg) ?_ hr
        rw [← he]
        simp only [hg, List.nil_append, List.length_singleton, starts]
        rw [show t.countP (fun x => x == Ev.newStart) = 0 by omega]
        decide
      · refine ih s1 s' (one_step s e s1 h hst he) ?_ hr
        rw [step_length s e s1 hst he]
        simp only [starts, List.countP_cons] at hn
        rw [if_neg (by simpa using hst)] at hn
        exact hn

theorem one_init : One init := ⟨rfl, rfl, rfl⟩

/-! ## C299 -/

/-- **C299**: of all the calls of `Stop` on a wheel that was started at most once, in every interleaving at most one is told that it
stopped the wheel, and one is exactly when the goroutine of the wheel was told to end. -/
theorem C299_one_told (evs : List Ev) (s : St) (h1 : starts evs ≤ 1) (hr : run init evs = some s) :
    s.ks.countP K.told ≤ 1 ∧ (0 < s.ks.countP K.told ↔ ∃ g ∈ s.gs, g.ending = true) := by
  have h := run_one evs init s one_init (by simpa [init] using h1) hr
  obtain ⟨field, closed, ticker, signal, served, gs, ks⟩ := s
  match gs, h with
  | [], h => obtain ⟨a, -, -⟩ := h; dsimp only at a ⊢; simp [a]
  | [g], h =>
    cases g <;> simp only [One] at h <;> simp [h, G.ending]

/-- Two calls of `Stop` at the same time: both find the field, one is told that it stopped the wheel, the other that it was stopped. -/
example : run init [.newStart, .go 0 false, .go 0 false, .newStop, .newStop, .st 0 none, .st 1 none, .st 1 (some 0), .st 0 none,
    .st 0 none, .st 1 none] = some ⟨true, false, false, false, 0, [.received], [.done true, .done false]⟩ := by decide

theorem ending_keeps (n : Nat) (s : St) (e : Ev) (s' : St) (h : One s ∧ (∃ g ∈ s.gs, g.ending = true) ∧ s.served = n) (he : e ≠ .newStart)
    (hs : step s e = .ok s') : One s' ∧ (∃ g ∈ s'.gs, g.ending = true) ∧ s'.served = n := by
  obtain ⟨ho, hg, hn⟩ := h
  refine ⟨one_step s e s' ho he hs, ?_⟩
  obtain ⟨field, closed, ticker, signal, served, gs, ks⟩ := s
  match gs, ho, hg with
  | [g], ho, hg =>
    have hg : g.ending = true := by simpa using hg
    dsimp only at hn
    subst hn
    cases e with
    | newStart => exact absurd rfl he
    | newStop => cases hs; simp [hg]
    | fire to =>
      simp only [step, fireStep] at hs
      split at hs
      · cases to with
        | some j =>
          dsimp only at hs
          split at hs
          · rename_i c hj
            obtain ⟨-, rfl⟩ := idx_one hj
            simp [G.ending] at hg
          · cases hs
        | none =>
          dsimp only at hs
          split at hs
          · cases hs
          · cases hs; simp [hg]
      · cases hs
    | go i pick =>
      cases i with
      | succ n => simp [step, goStep] at hs
      | zero =>
        simp only [step, goStep, List.getElem?_cons_zero, List.set_cons_zero] at hs
        cases g with
        | begin => simp [G.ending] at hg
        | atSelect => simp [G.ending] at hg
        | parked c => simp [G.ending] at hg
        | running => simp [G.ending] at hg
        | received =>
          dsimp only at hs
          split at hs
          · cases hs; simp [G.ending, G.woken]
          · cases hs
        | closing => cases hs; simp [G.ending]
        | leaving => cases hs; simp [G.ending]
        | done => cases hs
    | st i to =>
      simp only [step, stStep] at hs
      split at hs
      · cases hs
      · split at hs <;> (cases hs; simp [hg])
      · split at hs
        · split at hs
          · cases hs
          · cases to with
            | some j =>
              dsimp only at hs
              split at hs
              · rename_i hj
                obtain ⟨-, rfl⟩ := idx_one hj
                simp [G.ending] at hg
              · cases hs
            | none =>
              dsimp only at hs
              split at hs
              · cases hs
              · cases hs; simp [hg]
        · cases hs; simp [hg]
      · cases hs; simp [hg]
      · cases hs

/-- **C299**: from the moment one call of `Stop` was told that it stopped the wheel no tick is served any more, whatever the other
calls, the ticker and the goroutine do, unless the wheel is started again. -/
theorem C299_no_tick_after (evs more : List Ev) (s s' : St) (h1 : starts evs ≤ 1) (hr : run init evs = some s)
    (ht : ∃ k ∈ s.ks, k.told = true) (hm : starts more = 0) (hr' : run s more = some s') : s'.served = s.served := by
  have ho := run_one evs init s one_init (by simpa [init] using h1) hr
  have hg := ((C299_one_told evs s h1 hr).2).mp (List.countP_pos_iff.mpr ht)
  refine (run_inv (fun x => One x ∧ (∃ g ∈ x.gs, g.ending = true) ∧ x.served = s.served) (fun e => e ≠ .newStart)
    (ending_keeps s.served) more ?_ s s' ⟨ho, hg, rfl⟩ hr').2.2
  intro e he hc
  have := List.countP_eq_zero.mp hm e he
  exact this (by simp [hc])

example : ∃ s, run init [.newStart, .go 0 false, .go 0 false, .fire (some 0), .go 0 false, .go 0 false, .newStop, .newStop, .st 0 none,
    .st 1 none, .st 1 (some 0)] = some s ∧ s.served = 1 ∧ (∃ k ∈ s.ks, k.told = true) ∧
    ∃ s', run s [.fire none, .st 0 none, .st 0 none, .go 0 false, .go 0 false, .go 0 false] = some s' ∧ s'.signal = true ∧
      s'.gs = [.done] := ⟨_, rfl, rfl, by decide, _, rfl, rfl, rfl⟩

/-- **C299**: the only panic of a wheel started at most once is that of a call of `Stop` that found the field still there and comes to its
select while the goroutine is between closing the channel and clearing the field. -/
theorem C299_panics (evs : List Ev) (s : St) (e : Ev) (h1 : starts evs ≤ 1) (hr : run init evs = some s) :
    step s e = .panic ↔ ∃ i to, e = .st i to ∧ s.ks[i]? = some .select ∧ s.gs = [.closing] := by
  have h := run_one evs init s one_init (by simpa [init] using h1) hr
  obtain ⟨field, closed, ticker, signal, served, gs, ks⟩ := s
  constructor
  · intro hs
    cases e with
    | newStart => cases hs
    | newStop => cases hs
    | fire to =>
      simp only [step, fireStep] at hs
      repeat' split at hs
      all_goals cases hs
    | go i pick =>
      exfalso
      simp only [step, goStep] at hs
      match gs, h with
      | [], h => simp at hs
      | [g], h =>
        cases i with
        | succ n => simp at hs
        | zero =>
          simp only [List.getElem?_cons_zero] at hs
          cases g with
          | received =>
            obtain ⟨-, h2, h3⟩ := h
            dsimp only at h2 h3
            subst h2 h3
            simp at hs
          | atSelect => dsimp only at hs; repeat' split at hs
                        all_goals cases hs
          | _ => cases hs
    | st i to =>
      refine ⟨i, to, rfl, ?_⟩
      simp only [step, stStep] at hs
      split at hs
      · cases hs
      · split at hs <;> cases hs
      · rename_i hk
        refine ⟨hk, ?_⟩
        split at hs
        · rename_i hf
          split at hs
          · rename_i hc
            match gs, h with
            | [], h => obtain ⟨-, -, h3⟩ := h; dsimp only at h3; rw [h3] at hc; cases hc
            | [g], h => cases g <;> simp_all [One]
          · repeat' split at hs
            all_goals cases hs
        · cases hs
      · cases hs
      · cases hs
  · rintro ⟨i, to, rfl, hk, hg⟩
    dsimp only at hg hk
    subst hg
    obtain ⟨-, h2, h3⟩ := h
    dsimp only at h2 h3
    subst h2 h3
    simp [step, stStep, hk]

/-- The call that found the field before the other one was told, and comes to its select too late. -/
example : ∃ s, run init [.newStart, .go 0 false, .go 0 false, .newStop, .newStop, .st 0 none, .st 1 none, .st 1 (some 0), .go 0 false] = some s ∧
    step s (.st 0 none) = .panic := ⟨_, rfl, rfl⟩

/-- No goroutine is still on its way to set the ticker. -/
def Set (s : St) : Prop := ∀ g ∈ s.gs, g ≠ .begin

theorem begin_set {gs : List G} (h : ∀ g ∈ gs, g ≠ G.begin) {i : Nat} {g : G} (hg : g ≠ .begin) : ∀ x ∈ gs.set i g, x ≠ .begin := by
  intro x hx
  rcases List.mem_or_eq_of_mem_set hx with hx | hx
  · exact h x hx
  · rw [hx]; exact hg

theorem begin_woken {gs : List G} (h : ∀ g ∈ gs, g ≠ G.begin) : ∀ x ∈ gs.map G.woken, x ≠ .begin := by
  intro x hx
  obtain ⟨g, hg, rfl⟩ := List.mem_map.mp hx
  have := h g hg
  cases g with
  | parked c => cases c <;> simp [G.woken]
  | _ => first | exact absurd rfl this | simp [G.woken]

theorem off_step (n : Nat) (s : St) (e : Ev) (s' : St)
    (h : Set s ∧ s.ticker = false ∧ s.served + (if s.signal then 1 else 0) ≤ n) (he : e ≠ .newStart) (hs : step s e = .ok s') :
    Set s' ∧ s'.ticker = false ∧ s'.served + (if s'.signal then 1 else 0) ≤ n := by
  obtain ⟨field, closed, ticker, signal, served, gs, ks⟩ := s
  obtain ⟨h1, h2, h3⟩ := h
  unfold Set at h1 ⊢
  dsimp only at h1 h2 h3
  cases e with
  | newStart => exact absurd rfl he
  | newStop => cases hs; exact ⟨h1, h2, h3⟩
  | fire to => subst h2; simp [step, fireStep] at hs
  | go i pick =>
    simp only [step, goStep] at hs
    split at hs
    · cases hs
    · rename_i hg; exact absurd rfl (h1 _ (List.mem_of_getElem? hg))
    · split at hs
      · cases hs; exact ⟨begin_set h1 (by simp), h2, h3⟩
      · split at hs
        · rename_i hsig
          cases hs
          refine ⟨begin_set h1 (by simp), h2, ?_⟩
          simp [hsig] at h3
          simpa using h3
        · cases hs; exact ⟨begin_set h1 (by simp), h2, h3⟩
    · cases hs
    · cases hs; exact ⟨begin_set h1 (by simp), h2, h3⟩
    · split at hs
      · cases hs; exact ⟨begin_woken (begin_set h1 (by simp)), h2, h3⟩
      · cases hs
    · cases hs; exact ⟨begin_set h1 (by simp), h2, h3⟩
    · cases hs; exact ⟨begin_set h1 (by simp), rfl, h3⟩
    · cases hs
  | st i to =>
    simp only [step, stStep] at hs
    split at hs
    · cases hs
    · split at hs <;> (cases hs; exact ⟨h1, h2, h3⟩)
    · split at hs
      · split at hs
        · cases hs
        · cases to with
          | some j =>
            dsimp only at hs
            split at hs
            · cases hs; exact ⟨begin_set h1 (by simp), h2, h3⟩
            · cases hs
          | none =>
            dsimp only at hs
            split at hs
            · cases hs
            · cases hs; exact ⟨h1, h2, h3⟩
      · cases hs; exact ⟨h1, h2, h3⟩
    · cases hs; exact ⟨h1, rfl, h3⟩
    · cases hs

/-- **C299**: when a call of `Stop` that did not find the wheel gone returns, whatever it answers and however many goroutines and other calls
there are, at most the one tick that is waiting is served after it, unless a call of `Start` has still to set the ticker. -/
theorem C299_returned (s s1 s2 : St) (i : Nat) (to : Option Nat) (a : Bool) (hk : s.ks[i]? = some (.halt a)) (hset : ∀ g ∈ s.gs, g ≠ .begin)
    (hs : step s (.st i to) = .ok s1) (more : List Ev) (hm : starts more = 0) (hr : run s1 more = some s2) :
    s1.ks[i]? = some (.done a) ∧ s2.ticker = false ∧ s2.served ≤ s.served + (if s.signal then 1 else 0) := by
  simp only [step, stStep, hk, Out.ok.injEq] at hs
  subst hs
  have hi : i < s.ks.length := (List.getElem?_eq_some_iff.mp hk).1
  obtain ⟨-, h2, h3⟩ := run_inv (fun x => Set x ∧ x.ticker = false ∧ x.served + (if x.signal then 1 else 0) ≤ s.served + (if s.signal then 1 else 0))
    (fun e => e ≠ .newStart) (off_step _) more (by
      intro e he hc
      exact List.countP_eq_zero.mp hm e he (by simp [hc])) { s with ticker := false, ks := s.ks.set i (.done a) } s2
    ⟨hset, rfl, Nat.le_refl _⟩ hr
  exact ⟨by simp [hi], h2, by omega⟩

/-- A busy wheel with a tick waiting. -/
example : ∃ s s1 s2, run init [.newStart, .go 0 false, .fire none, .go 0 false, .fire none, .newStop, .st 0 none, .st 0 none] = some s ∧
    s.ks[0]? = some (.halt true) ∧ step s (.st 0 none) = .ok s1 ∧ run s1 [.go 0 false, .go 0 false, .go 0 false, .go 0 false] = some s2 ∧
    s2.served = s.served + 1 := ⟨_, _, _, rfl, rfl, rfl, rfl, rfl⟩

/-! ## C300 -/

/-- **C300** violated: a wheel started twice cannot be stopped: if two goroutines wait for the next tick, a call of `Stop` is told that it
stopped the wheel, and then, as soon as the goroutine it reached has closed the channel, the next step of the other one panics, in every schedule
in which it comes to make one. -/
theorem C300_started_twice_violated (s : St) (i j k : Nat) (hij : i ≠ j) (hi : s.gs[i]? = some (.parked true)) (hj : s.gs[j]? = some (.parked true))
    (hk : s.ks[k]? = some .select) (hf : s.field = true) (hc : s.closed = false) :
    ∃ s1, run s [.st k (some i), .go i false] = some s1 ∧ s1.ks[k]? = some (.halt false) ∧
      ∀ more s2, run s1 more = some s2 → ∀ pick, step s2 (.go j pick) = .panic := by
  have hli : i < s.gs.length := (List.getElem?_eq_some_iff.mp hi).1
  have hlk : k < s.ks.length := (List.getElem?_eq_some_iff.mp hk).1
  refine ⟨{ s with closed := true, gs := ((s.gs.set i .received).set i .closing).map G.woken, ks := s.ks.set k (.halt false) }, ?_, by simp [hlk], ?_⟩
  · have e1 : step s (.st k (some i)) = .ok { s with gs := s.gs.set i .received, ks := s.ks.set k (.halt false) } := by
      simp only [step, stStep, hk, hf, hc, hi, if_true, Bool.false_eq_true, if_false]
    have e2 : (s.gs.set i G.received)[i]? = some .received := by simp [hli]
    have e3 : step { s with gs := s.gs.set i .received, ks := s.ks.set k (.halt false) } (.go i false) =
        .ok { s with closed := true, gs := ((s.gs.set i .received).set i .closing).map G.woken, ks := s.ks.set k (.halt false) } := by
      simp only [step, goStep, e2, hf, hc, Bool.not_false, Bool.and_self, if_true]
    simp only [run, e1, e3]
  · intro more s2 hr pick
    have hinv := run_inv (fun x => x.gs[j]? = some .received ∧ x.closed = true) (fun _ => True) ?_ more (fun _ _ => trivial) _ s2 ?_ hr
    · obtain ⟨a, b⟩ := hinv
      simp [step, goStep, a, b]
    · rintro x e x' ⟨a, b⟩ - hs
      cases e with
      | newStart => cases hs; exact ⟨by rw [List.getElem?_append_left (List.getElem?_eq_some_iff.mp a).1]; exact a, b⟩
      | newStop => cases hs; exact ⟨a, b⟩
      | fire to =>
        simp only [step, fireStep] at hs
        split at hs
        · cases to with
          | some m =>
            dsimp only at hs
            split at hs
            · rename_i c hm
              cases hs
              have : m ≠ j := fun e => by rw [e, a] at hm; cases hm
              exact ⟨by simp [List.getElem?_set, this, a], b⟩
            · cases hs
          | none =>
            dsimp only at hs
            split at hs
            · cases hs
            · cases hs; exact ⟨a, b⟩
        · cases hs
      | go m pick =>
        by_cases hm : m = j
        · subst hm
          simp [step, goStep, a, b] at hs
        · simp only [step, goStep] at hs
          split at hs
          · cases hs
          · cases hs; exact ⟨by simp [List.getElem?_set, hm, a], b⟩
          · split at hs
            · cases hs; exact ⟨by simp [List.getElem?_set, hm, a], b⟩
            · split at hs <;> (cases hs; exact ⟨by simp [List.getElem?_set, hm, a], b⟩)
          · cases hs
          · cases hs; exact ⟨by simp [List.getElem?_set, hm, a], b⟩
          · split at hs
            · cases hs; exact ⟨by simp [List.getElem?_set, hm, a, G.woken], rfl⟩
            · cases hs
          · cases hs; exact ⟨by simp [List.getElem?_set, hm, a], b⟩
          · cases hs; exact ⟨by simp [List.getElem?_set, hm, a], b⟩
          · cases hs
      | st m to =>
        simp only [step, stStep] at hs
        split at hs
        · cases hs
        · split at hs <;> (cases hs; exact ⟨a, b⟩)
        · split at hs
          · cases hs
          · cases hs; exact ⟨a, b⟩
        · cases hs; exact ⟨a, b⟩
        · cases hs
    · refine ⟨?_, rfl⟩
      simp [List.getElem?_set, hij, hj, G.woken]

/-- Two goroutines that wait, and a call of `Stop` at its select. -/
example : run init [.newStart, .newStart, .go 0 false, .go 1 false, .go 0 false, .go 1 false, .newStop, .st 0 none] =
    some ⟨true, false, true, false, 0, [.parked true, .parked true], [.select]⟩ := by decide

/-- **C300** violated from the start: started twice and stopped once, the wheel panics. -/
theorem C300_panics_violated :
    ∃ evs s, starts evs = 2 ∧ evs.countP (· == .newStop) = 1 ∧ run init evs = some s ∧ step s (.go 1 false) = .panic :=
  ⟨[.newStart, .newStart, .go 0 false, .go 1 false, .go 0 false, .go 1 false, .newStop, .st 0 none, .st 0 (some 0), .go 0 false], _, rfl, rfl,
    rfl, rfl⟩

/-- **C300** (partial: what holds of a wheel started several times; missing: that it can be stopped at all without a panic, refuted:
`C300_started_twice_violated`): as long as no call of `Stop` was told that it stopped the wheel nothing panics.
Missing: that it can be stopped (refuted: `C300_started_twice_violated`). -/
theorem C300_untold_partial (evs : List Ev) (s : St) (e : Ev) (hr : run init evs = some s) (ht : ∀ k ∈ s.ks, k.told = false) :
    step s e ≠ .panic := by
  have key : ∀ (evs : List Ev) (s : St), run init evs = some s → (∀ k ∈ s.ks, k.told = false) →
      s.field = true ∧ s.closed = false ∧ ∀ g ∈ s.gs, g.ending = false := by
    intro evs s hr
    refine run_inv (fun x => (∀ k ∈ x.ks, k.told = false) → x.field = true ∧ x.closed = false ∧ ∀ g ∈ x.gs, g.ending = false) (fun _ => True)
      ?_ evs (fun _ _ => trivial) init s (fun _ => ⟨rfl, rfl, nofun⟩) hr
    rintro x e x' ih - hs hno
    have setG : ∀ (gs : List G) (m : Nat) (g : G), (∀ y ∈ gs, y.ending = false) → g.ending = false → ∀ y ∈ gs.set m g, y.ending = false := by
      intro gs m g h1 h2 y hy
      rcases List.mem_or_eq_of_mem_set hy with hy | hy
      · exact h1 y hy
      · rw [hy]; exact h2
    have back : ∀ (m : Nat) (k0 k : K), x.ks[m]? = some k0 → k0.told = false → (∀ y ∈ x.ks.set m k, y.told = false) →
        ∀ y ∈ x.ks, y.told = false := by
      intro m k0 k h1 h2 h3 y hy
      obtain ⟨n, hn, rfl⟩ := List.mem_iff_getElem.mp hy
      by_cases e : m = n
      · subst e
        rw [List.getElem?_eq_getElem hn] at h1
        injection h1 with h1
        rw [h1]; exact h2
      · refine h3 _ (List.mem_iff_getElem.mpr ⟨n, by simpa using hn, ?_⟩)
        simp [e]
    cases e with
    | newStart =>
      cases hs
      obtain ⟨a, b, c⟩ := ih hno
      refine ⟨a, b, fun g hg => ?_⟩
      rcases List.mem_append.mp hg with hg | hg
      · exact c g hg
      · rw [List.mem_singleton.mp hg]; rfl
    | newStop =>
      cases hs
      exact ih fun k hk => hno k (List.mem_append.mpr (.inl hk))
    | fire to =>
      simp only [step, fireStep] at hs
      split at hs
      · cases to with
        | some m =>
          dsimp only at hs
          split at hs
          · cases hs
            obtain ⟨a, b, c⟩ := ih hno
            exact ⟨a, b, setG _ _ _ c rfl⟩
          · cases hs
        | none =>
          dsimp only at hs
          split at hs
          · cases hs
          · cases hs; exact ih hno
      · cases hs
    | go m pick =>
      simp only [step, goStep] at hs
      split at hs
      · cases hs
      · cases hs; obtain ⟨a, b, c⟩ := ih hno; exact ⟨a, b, setG _ _ _ c rfl⟩
      · split at hs
        · rename_i hcond
          cases hs
          obtain ⟨a, b, c⟩ := ih hno
          simp [b] at hcond
        · split at hs
          · cases hs; obtain ⟨a, b, c⟩ := ih hno; exact ⟨a, b, setG _ _ _ c rfl⟩
          · cases hs; obtain ⟨a, b, c⟩ := ih hno; exact ⟨a, b, setG _ _ _ c rfl⟩
      · cases hs
      · cases hs; obtain ⟨a, b, c⟩ := ih hno; exact ⟨a, b, setG _ _ _ c rfl⟩
      · rename_i hg
        split at hs
        · cases hs
          have := (ih hno).2.2 _ (List.mem_of_getElem? hg)
          simp [G.ending] at this
        · cases hs
      · rename_i hg
        cases hs
        have := (ih hno).2.2 _ (List.mem_of_getElem? hg)
        simp [G.ending] at this
      · rename_i hg
        cases hs
        have := (ih hno).2.2 _ (List.mem_of_getElem? hg)
        simp [G.ending] at this
      · cases hs
    | st m to =>
      simp only [step, stStep] at hs
      split at hs
      · cases hs
      · rename_i hk
        split at hs <;> (cases hs; exact ih (back m _ _ hk rfl hno))
      · rename_i hk
        split at hs
        · split at hs
          · cases hs
          · cases to with
            | some j =>
              dsimp only at hs
              split at hs
              · cases hs
                exfalso
                have := hno (.halt false) (List.mem_iff_getElem.mpr ⟨m, by simpa using (List.getElem?_eq_some_iff.mp hk).1, by simp⟩)
                simp [K.told] at this
              · cases hs
            | none =>
              dsimp only at hs
              split at hs
              · cases hs
              · cases hs; exact ih (back m _ _ hk rfl hno)
        · cases hs; exact ih (back m _ _ hk rfl hno)
      · rename_i a hk
        cases hs
        cases a with
        | true => exact ih (back m _ _ hk rfl hno)
        | false =>
          exfalso
          have := hno (.done false) (List.mem_iff_getElem.mpr ⟨m, by simpa using (List.getElem?_eq_some_iff.mp hk).1, by simp⟩)
          simp [K.told] at this
      · cases hs
  obtain ⟨hf, hc, hg⟩ := key evs s hr ht
  intro hp
  cases e with
  | newStart => cases hp
  | newStop => cases hp
  | fire to =>
    simp only [step, fireStep] at hp
    repeat' split at hp
    all_goals cases hp
  | go m pick =>
    simp only [step, goStep] at hp
    split at hp
    · cases hp
    · cases hp
    · repeat' split at hp
      all_goals cases hp
    · cases hp
    · cases hp
    · rename_i h
      have := hg _ (List.mem_of_getElem? h)
      simp [G.ending] at this
    · cases hp
    · cases hp
    · cases hp
  | st m to =>
    simp only [step, stStep, hf, hc, if_true, Bool.false_eq_true, if_false] at hp
    split at hp
    · cases hp
    · cases hp
    · cases to with
      | some j =>
        dsimp only at hp
        split at hp <;> cases hp
      | none =>
        dsimp only at hp
        split at hp <;> cases hp
    · cases hp
    · cases hp

/-- Two goroutines and a call of `Stop` that met both of them busy. -/
example : ∃ s, run init [.newStart, .newStart, .go 0 false, .go 1 false, .newStop, .st 0 none, .st 0 none, .st 0 none] = some s ∧
    (∀ k ∈ s.ks, k.told = false) ∧ s.ks = [.done true] ∧ s.gs = [.atSelect, .atSelect] := ⟨_, rfl, by decide, rfl, rfl⟩

end Memar.Timer.WheelMany
