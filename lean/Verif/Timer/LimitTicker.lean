import Verif.Base

/-!
# Model of `timer/tick-limit.go` and of the signal channel of `timer/timer-sync.go`, with C67
-/

namespace Memar.Timer.Ticker

/-- The part of `LimitTicker` its handler touches, timer/tick-limit.go:28-31 and
timer/timer-sync.go:36-39: the remaining number, whether the one-element channel holds a signal,
and whether `Stop` was called. -/
structure LimitTicker where
  remaining : Int
  signal : Bool
  stopped : Bool
deriving DecidableEq, Repr

/-- timer/tick-limit.go:11-26: `none` is the error for a number below one. -/
def new (n : Int) : Option LimitTicker :=
  if n < 1 then none else some ⟨n, false, false⟩

/-- timer/tick-limit.go:46-57: the send never blocks (lines 47-50); then the count goes down or the
timer is stopped. -/
def handler (t : LimitTicker) : LimitTicker :=
  let t1 := { t with signal := true }
  if t1.remaining > 0 then { t1 with remaining := t1.remaining - 1 }
  else { t1 with stopped := true }

/-- A receive on the channel: `none` would block. -/
def receive (t : LimitTicker) : Option LimitTicker :=
  if t.signal then some { t with signal := false } else none

/-- The ticker fires `k` times, unless it was stopped before; how often did it fire? -/
def fire : Nat → LimitTicker → LimitTicker × Nat
  | 0, t => (t, 0)
  | k + 1, t => if t.stopped then (t, 0) else ((fire k (handler t)).1, (fire k (handler t)).2 + 1)

theorem fire_stopped (k : Nat) (t : LimitTicker) (h : t.stopped = true) : fire k t = (t, 0) := by
  cases k with
  | zero => rfl
  | succ k => rw [fire, if_pos h]

theorem fire_spec (k n : Nat) (s : Bool) :
    (fire k ⟨n, s, false⟩).2 = min k (n + 1) ∧
    ((fire k ⟨n, s, false⟩).1.stopped = true ↔ n + 1 ≤ k) ∧
    (fire k ⟨n, s, false⟩).1.remaining = ((n - k : Nat) : Int) := by
  induction k generalizing n s with
  | zero => simp [fire]
  | succ k ih =>
    rw [fire]
    simp only [Bool.false_eq_true, if_false]
    cases n with
    | zero =>
      have hh : handler ⟨((0 : Nat) : Int), s, false⟩ = ⟨0, true, true⟩ := rfl
      rw [hh, fire_stopped k _ rfl]
      refine ⟨?_, ?_, ?_⟩ <;> simp
    | succ n =>
      have hh : handler ⟨((n + 1 : Nat) : Int), s, false⟩ = ⟨(n : Int), true, false⟩ := by
        unfold handler
        simp only
        rw [if_pos (by omega)]
        simp only [LimitTicker.mk.injEq, and_true]
        omega
      rw [hh]
      obtain ⟨h1, h2, h3⟩ := ih n true
      refine ⟨by rw [h1]; omega, by rw [h2]; omega, by rw [h3]; congr 1; omega⟩

/-- However long the clock runs, the ticker made for `n` ticks fires `n + 1` times, and stops only
then: the number asked for is exceeded by one. -/
theorem C276_limit_exceeded_violated (n : Int) (hn : n ≥ 1) (k : Nat) (hk : (k : Int) > n) :
    ∃ t, new n = some t ∧ ((fire k t).2 : Int) = n + 1 ∧ (fire k t).1.stopped = true := by
  refine ⟨⟨n, false, false⟩, by rw [new, if_neg (by omega)], ?_⟩
  obtain ⟨m, rfl⟩ : ∃ m : Nat, n = m := ⟨n.toNat, by omega⟩
  obtain ⟨h1, h2, _⟩ := fire_spec k m false
  refine ⟨by rw [h1]; omega, h2.mpr (by omega)⟩

example := C276_limit_exceeded_violated 3 (by decide) 10 (by decide)

/-- It never fires more than once too often, and the reported remaining number counts down exactly
and is never negative.
Missing: that it fires exactly n times (refuted: `C276_limit_exceeded_violated`). -/
theorem C276_limit_and_remaining_partial (n : Int) (t : LimitTicker) (h : new n = some t) (k : Nat) :
    ((fire k t).2 : Int) ≤ n + 1 ∧ (fire k t).1.remaining = max 0 (n - k) := by
  unfold new at h
  split at h
  · cases h
  · cases h
    obtain ⟨m, rfl⟩ : ∃ m : Nat, n = m := ⟨n.toNat, by omega⟩
    obtain ⟨h1, _, h3⟩ := fire_spec k m false
    refine ⟨by rw [h1]; omega, by rw [h3]; omega⟩

example := C276_limit_and_remaining_partial 3 _ rfl 2

/-- A ticker can be made for exactly the numbers of at least one. -/
theorem C67_refuses_below_one (n : Int) : new n = none ↔ n < 1 := by
  unfold new
  split
  · simpa
  · simp only [reduceCtorEq, false_iff]; omega

/-- Firing never blocks and never leaves more than one signal; after a firing exactly one receive
succeeds. -/
theorem C67_signal_is_one_slot (t : LimitTicker) :
    (handler t).signal = true ∧
    ∃ t', receive (handler t) = some t' ∧ receive t' = none := by
  have h : (handler t).signal = true := by
    unfold handler; simp only; split <;> rfl
  refine ⟨h, { handler t with signal := false }, ?_, ?_⟩
  · rw [receive, if_pos h]
  · rw [receive, if_neg]; simp

example : ∃ t, new 3 = some t ∧ (fire 10 t).2 = 4 := ⟨_, rfl, rfl⟩

/-! ## Setting a limited ticker up again -/

/-- Whose `TimerHandler` the timer calls. -/
inductive Registered
  | /-- that of the limited ticker, timer/tick-limit.go:46-57 -/ limit
  | /-- that of the signalling timer inside it, timer/timer-sync.go:67-73 -/ sync
deriving DecidableEq, Repr

/-- timer/tick-limit.go:34-41: `Init` registers the limited ticker. -/
def registeredByInit : Registered := .limit

/-- timer/timer-sync.go:54: a limited ticker has no `Reinit` of its own, so `Reinit` is the one of the embedded `Sync`,
which registers that unless stopping the timer failed (timer/timer-async.go:69-72). -/
def registeredByReinit (stopFailed : Bool) (r : Registered) : Registered := if stopFailed then r else .sync

/-- One firing with the registered handler. -/
def handlerOf : Registered → LimitTicker → LimitTicker
  | .limit, t => handler t
  | .sync, t => { t with signal := true }

/-- The ticker fires `k` times with the registered handler, unless it was stopped before; how often did it fire? -/
def fireWith (r : Registered) : Nat → LimitTicker → LimitTicker × Nat
  | 0, t => (t, 0)
  | k + 1, t =>
    if t.stopped then (t, 0) else ((fireWith r k (handlerOf r t)).1, (fireWith r k (handlerOf r t)).2 + 1)

/-- A ticker that was set up again and runs again has no limit: it fires as often as the clock asks for, and the
remaining number never changes. -/
theorem C283_reinit_loses_the_limit_violated (k : Nat) (r : Registered) (t : LimitTicker) (h : t.stopped = false) :
    (fireWith (registeredByReinit false r) k t).2 = k ∧
    (fireWith (registeredByReinit false r) k t).1.stopped = false ∧
    (fireWith (registeredByReinit false r) k t).1.remaining = t.remaining := by
  have e : registeredByReinit false r = .sync := rfl
  rw [e]
  induction k generalizing t with
  | zero => exact ⟨rfl, h, rfl⟩
  | succ k ih =>
    rw [fireWith, h]
    obtain ⟨h1, h2, h3⟩ := ih (handlerOf .sync t) h
    exact ⟨by simp [h1], h2, h3⟩

example : ∃ t, new 3 = some t ∧ (fireWith (registeredByReinit false registeredByInit) 100 t).2 = 100 :=
  ⟨_, rfl, (C283_reinit_loses_the_limit_violated 100 _ ⟨3, false, false⟩ rfl).1⟩

/-- A ticker that was not set up again, or for which that failed, keeps its limit: it fires at most once more than asked
for, and the remaining number counts down.
Missing: tickers set up again with success (refuted: `C283_reinit_loses_the_limit_violated`). -/
theorem C283_stays_limited_partial (n : Int) (t : LimitTicker) (h : new n = some t) (k : Nat) (r : Registered)
    (hr : r = registeredByInit ∨ r = registeredByReinit true registeredByInit) :
    ((fireWith r k t).2 : Int) ≤ n + 1 ∧ (fireWith r k t).1.remaining = max 0 (n - k) := by
  have e : r = .limit := by rcases hr with e | e <;> exact e
  have same : ∀ k t, fireWith .limit k t = fire k t := by
    intro k
    induction k with
    | zero => intro t; rfl
    | succ k ih => intro t; rw [fireWith, fire, ih]; rfl
  rw [e, same]
  exact C276_limit_and_remaining_partial n t h k

example := C283_stays_limited_partial 3 _ rfl 20 _ (Or.inr rfl)

end Memar.Timer.Ticker
