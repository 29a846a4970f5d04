import Verif.Timer.Cores
import Verif.Timer.TimingProps

/-!
# C165: a timer is served on whichever core it is started
-/

namespace Memar.Timer.Queue

open Memar.Timer

theorem initLoop_spec (on : Nat → Nat) (ids : List Nat) (p : List Core) (h : ∀ i ∈ ids, i < p.length) :
    ∃ q, initLoop on ids p = some q ∧ q.length = p.length ∧
      ∀ i c, p[i]? = some c → q[i]? = some (if i ∈ ids then c.init (on i) else c) := by
  induction ids generalizing p with
  | nil => exact ⟨p, rfl, rfl, fun i c hc => by simpa using hc⟩
  | cons a ids ih =>
    have ha := h a (by simp)
    rw [initLoop, List.getElem?_eq_getElem ha]
    obtain ⟨q, q1, q2, q3⟩ := ih (p.set a (p[a].init (on a))) (fun i hi => by
      rw [List.length_set]; exact h i (by simp [hi]))
    refine ⟨q, q1, by rw [q2, List.length_set], fun i c hc => ?_⟩
    by_cases e : i = a
    · subst e
      have hv : p[i] = c := by rw [List.getElem?_eq_getElem ha] at hc; exact Option.some.inj hc
      have := q3 i (c.init (on i)) (by rw [hv, List.getElem?_set_self ha])
      rw [this]
      by_cases hm : i ∈ ids <;> simp [hm, Core.init]
    · have := q3 i c (by rw [List.getElem?_set_ne (Ne.symm e)]; exact hc)
      rw [this]
      simp [e]

theorem initLoop_none (on : Nat → Nat) (ids : List Nat) (p : List Core) (h : ∃ i ∈ ids, p.length ≤ i) :
    initLoop on ids p = none := by
  induction ids generalizing p with
  | nil => obtain ⟨i, hi, _⟩ := h; cases hi
  | cons a ids ih =>
    rw [initLoop]
    cases e : p[a]? with
    | none => rfl
    | some c =>
      refine ih _ ?_
      obtain ⟨i, hi, hl⟩ := h
      have ha := (List.getElem?_eq_some_iff.mp e).1
      rcases List.mem_cons.mp hi with r | r
      · omega
      · exact ⟨i, r, by rw [List.length_set]; exact hl⟩

/-- **C165** violated for programs told to use more cores than there are: with `GOMAXPROCS` above the number of logical
cores, the package panics while the program starts. -/
theorem C165_start_up_violated (cpus procs : Nat) (on : Nat → Nat) (h : cpus < procs) :
    initCores cpus procs on = none := by
  refine initLoop_none _ _ _ ⟨cpus, List.mem_range.mpr h, ?_⟩
  simp

example : initCores 4 8 id = none := C165_start_up_violated 4 8 id (by decide)

/-- **C165**: otherwise the program starts with an empty queue for each logical core, and the loop runs for exactly the
first `procs` of them.
Missing: more loops than queues, cores without a loop, and core numbers outside the queues
(refuted: `C165_start_up_violated`, `C165_core_number_violated`, `C165_unserved_violated` and
others). -/
theorem C165_start_up_partial (cpus procs : Nat) (on : Nat → Nat) (h : procs ≤ cpus) :
    ∃ p, initCores cpus procs on = some p ∧ p.length = cpus ∧
      ∀ i k, p[i]? = some k → k.tg = Tg.init ∧ (k.looping = true ↔ i < procs) ∧ (i < procs → k.coreID = on i) := by
  obtain ⟨q, q1, q2, q3⟩ := initLoop_spec on (List.range procs) (List.replicate cpus ⟨Tg.init, 0, false⟩)
    (fun i hi => by have := List.mem_range.mp hi; rw [List.length_replicate]; omega)
  refine ⟨q, q1, by rw [q2, List.length_replicate], fun i k hk => ?_⟩
  have hl := (List.getElem?_eq_some_iff.mp hk).1
  rw [q2, List.length_replicate] at hl
  have := q3 i ⟨Tg.init, 0, false⟩ (by rw [List.getElem?_replicate]; simp [hl])
  rw [this] at hk
  by_cases hi : i < procs <;> simp [hi] at hk <;> subst hk <;> simp [Core.init, hi]

example : ∃ p, initCores 4 2 (fun _ => 3) = some p ∧ p.length = 4 := by
  obtain ⟨p, h1, h2, _⟩ := C165_start_up_partial 4 2 (fun _ => 3) (by decide)
  exact ⟨p, h1, h2⟩

/-- **C165** violated for the number a queue keeps of its core: the whole start-up runs on one core, and every queue
gets the number of that core, not its own. -/
theorem C165_core_number_violated (cpus procs c : Nat) (h : procs ≤ cpus) (p : List Core)
    (hp : initCores cpus procs (fun _ => c) = some p) (i : Nat) (hi : i < procs) (hne : i ≠ c) :
    ∃ k, p[i]? = some k ∧ k.coreID = c ∧ k.coreID ≠ i := by
  obtain ⟨q, q1, q2, q3⟩ := C165_start_up_partial cpus procs (fun _ => c) h
  rw [hp] at q1; cases q1
  have hl : i < p.length := by omega
  have e := List.getElem?_eq_getElem hl
  obtain ⟨_, _, r⟩ := q3 i _ e
  exact ⟨_, e, r hi, by rw [r hi]; exact Ne.symm hne⟩

example : ∃ p, initCores 4 2 (fun _ => 3) = some p ∧ ∃ k, p[0]? = some k ∧ k.coreID = 3 ∧ k.coreID ≠ 0 := by
  obtain ⟨p, h1, _⟩ := C165_start_up_partial 4 2 (fun _ => 3) (by decide)
  exact ⟨p, h1, C165_core_number_violated 4 2 3 (by decide) p h1 0 (by decide) (by decide)⟩

/-- What the program does: it calls the methods of timers; only the loops look for timers to run. -/
def Ev.user : Ev → Prop
  | .call _ (.check _ _) => False
  | _ => True

/-- The calls and rounds that touch the queue of one core, in order. -/
def onCore (core : Nat) : List Ev → List Call
  | [] => []
  | .call k c :: es => if k = core then c :: onCore core es else onCore core es
  | .round k fuel now :: es => if k = core then .check fuel now :: onCore core es else onCore core es

/-- The calls alone. -/
def callsOn (core : Nat) : List Ev → List Call
  | [] => []
  | .call k c :: es => if k = core then c :: callsOn core es else callsOn core es
  | .round _ _ _ :: es => callsOn core es

theorem bind_ok {α β : Type} {o : Out α} {f : α → Out β} {b : β} (h : o.bind f = .ok b) :
    ∃ a, o = .ok a ∧ f a = .ok b := by
  cases o <;> first | exact ⟨_, rfl, h⟩ | cases h

theorem evStep_other {p q : List Core} {e : Ev} {core : Nat} (h : evStep p e = .ok q)
    (hne : match e with | .call k _ => k ≠ core | .round k _ _ => k ≠ core) : q[core]? = p[core]? := by
  cases e with
  | call k c =>
    simp only at hne
    rw [evStep] at h
    split at h
    · cases h
    · obtain ⟨r, _, r2⟩ := bind_ok h
      cases r2
      exact List.getElem?_set_ne hne
  | round k fuel now =>
    simp only at hne
    rw [evStep] at h
    split at h
    · cases h; rfl
    · split at h
      · obtain ⟨r, _, r2⟩ := bind_ok h
        cases r2
        exact List.getElem?_set_ne hne
      · cases h; rfl

theorem evRun_core {es : List Ev} {p q : List Core} {core : Nat} {k : Core} (hk : p[core]? = some k)
    (h : evRun es p = .ok q) :
    ∃ k', q[core]? = some k' ∧ k'.looping = k.looping ∧
      runCalls (if k.looping then onCore core es else callsOn core es) k.tg = .ok k'.tg := by
  induction es generalizing p k with
  | nil =>
    cases h
    refine ⟨k, hk, rfl, ?_⟩
    cases k.looping <;> rfl
  | cons e es ih =>
    rw [evRun] at h
    obtain ⟨p1, h1, h2⟩ := bind_ok h
    cases e with
    | call c0 c =>
      by_cases e0 : c0 = core
      · subst e0
        rw [evStep, hk] at h1
        obtain ⟨r, r1, r2⟩ := bind_ok h1
        have hl := (List.getElem?_eq_some_iff.mp hk).1
        cases r2
        obtain ⟨k', a1, a2, a3⟩ := ih (k := { k with tg := r.1 }) (List.getElem?_set_self hl) h2
        refine ⟨k', a1, a2, ?_⟩
        simp only at a3
        cases hb : k.looping <;>
          simp only [hb, onCore, callsOn, if_true, Bool.false_eq_true, if_false, reduceIte] at a3 ⊢ <;>
          rw [runCalls, r1] <;> exact a3
      · have := evStep_other (core := core) h1 e0
        obtain ⟨k', a1, a2, a3⟩ := ih (this.trans hk) h2
        refine ⟨k', a1, a2, ?_⟩
        simpa only [onCore, callsOn, e0, if_false] using a3
    | round c0 fuel now =>
      by_cases e0 : c0 = core
      · subst e0
        rw [evStep, hk] at h1
        cases hb : k.looping with
        | true =>
          simp only [hb, if_true] at h1
          obtain ⟨r, r1, r2⟩ := bind_ok h1
          have hl := (List.getElem?_eq_some_iff.mp hk).1
          cases r2
          obtain ⟨k', a1, a2, a3⟩ := ih (k := { k with tg := r.1 }) (List.getElem?_set_self hl)
            (by simpa only [hb] using h2)
          refine ⟨k', a1, a2.trans hb, ?_⟩
          simp only [hb, if_true] at a3
          simp only [onCore, if_true]
          rw [runCalls, Call.run, r1]
          exact a3
        | false =>
          simp only [hb, Bool.false_eq_true, if_false] at h1
          cases h1
          obtain ⟨k', a1, a2, a3⟩ := ih hk h2
          refine ⟨k', a1, a2.trans hb, ?_⟩
          simpa only [hb, callsOn, Bool.false_eq_true, if_false] using a3
      · have := evStep_other (core := core) h1 e0
        obtain ⟨k', a1, a2, a3⟩ := ih (this.trans hk) h2
        refine ⟨k', a1, a2, ?_⟩
        simpa only [onCore, callsOn, e0, if_false] using a3

/-- For the examples: the program starts, the events run, and the queue of the core is as told. -/
def runsTo (cpus procs : Nat) (es : List Ev) (core : Nat) (P : Tg → Bool) : Bool :=
  match initCores cpus procs (fun _ => 0) with
  | none => false
  | some p =>
    match evRun es p with
    | .ok q => match q[core]? with
      | some k => P k.tg
      | none => false
    | _ => false

theorem call_silent {tg tg' : Tg} {c : Call} {r : Option Err} (g : Good none tg) (h : c.run tg = .ok (tg', r))
    (hc : ∀ f n, c ≠ .check f n) : tg'.fired = tg.fired := by
  obtain ⟨new, h1, h2⟩ := call_spec g h
  cases c with
  | check f n => exact absurd rfl (hc f n)
  | start t d now => rw [h1, h2.1, List.append_nil]
  | stop t => rw [h1, h2.1, List.append_nil]
  | reset t d now => rw [h1, h2.1, List.append_nil]
  | tick t f i now => rw [h1, h2.1, List.append_nil]

theorem runCalls_silent {cs : List Call} {tg tg' : Tg} (g : Good none tg) (h : runCalls cs tg = .ok tg')
    (hc : ∀ c ∈ cs, ∀ f n, c ≠ .check f n) : tg'.fired = tg.fired := by
  induction cs generalizing tg with
  | nil => cases h; rfl
  | cons c cs ih =>
    rw [runCalls] at h
    obtain ⟨⟨tg1, e⟩, h1, h2⟩ := bind_ok h
    rw [ih (call_good g h1) h2 (fun c hc' => hc c (List.mem_cons_of_mem _ hc'))]
    exact call_silent g h1 (hc c (by simp))

theorem callsOn_user (core : Nat) (es : List Ev) (hu : ∀ e ∈ es, e.user) :
    ∀ c ∈ callsOn core es, ∀ f n, c ≠ .check f n := by
  induction es with
  | nil => intro c hc; cases hc
  | cons e es ih =>
    have ih' := ih (fun e he => hu e (List.mem_cons_of_mem _ he))
    have h0 := hu e (by simp)
    cases e with
    | call k c =>
      rw [callsOn]
      split
      · intro d hd f n
        rcases List.mem_cons.mp hd with r | r
        · subst r
          intro hh
          rw [hh] at h0
          exact h0
        · exact ih' d r f n
      · exact ih'
    | round k f n => exact ih'

/-- **C165** violated for cores past the first `GOMAXPROCS`: a program that runs on fewer cores than the machine has can
still be put on any of them, and a timer started there is never run, however often and however late the loops run. -/
theorem C165_unserved_violated (cpus procs core : Nat) (on : Nat → Nat) (h : procs ≤ core) (hc : core < cpus)
    (p q : List Core) (hp : initCores cpus procs on = some p) (es : List Ev) (hu : ∀ e ∈ es, e.user)
    (hq : evRun es p = .ok q) : ∃ k, q[core]? = some k ∧ k.tg.fired = [] := by
  obtain ⟨p', q1, q2, q3⟩ := C165_start_up_partial cpus procs on (by omega)
  rw [hp] at q1; cases q1
  have hl : core < p.length := by omega
  have e := List.getElem?_eq_getElem hl
  obtain ⟨a1, a2, _⟩ := q3 core _ e
  obtain ⟨k', b1, b2, b3⟩ := evRun_core e hq
  have hb : p[core].looping = false := by
    cases hh : p[core].looping
    · rfl
    · have := a2.mp hh; omega
  rw [hb, a1] at b3
  simp only [Bool.false_eq_true, if_false] at b3
  exact ⟨k', b1, (runCalls_silent good_init b3 (callsOn_user core es hu)).trans rfl⟩

/-- The timer 1, started on core 1 of 2 with `GOMAXPROCS` 1 for 10 nanoseconds, is still waiting at 1000. -/
example : runsTo 2 1 [.call 1 (.start 1 10 0), .round 0 9 1000, .round 1 9 1000] 1
    (fun tg => decide ((armed tg).due 1 = some 10 ∧ tg.fired = [])) = true := by decide +kernel

/-- **C165** violated for processes that may not run on every core of the machine: the number of a core can be past the
number of cores the process sees, and starting a timer there panics. -/
theorem C165_no_queue_violated (cpus procs core : Nat) (on : Nat → Nat) (h : procs ≤ cpus) (hc : cpus ≤ core)
    (p q : List Core) (hp : initCores cpus procs on = some p) (es : List Ev) (hq : evRun es p = .ok q)
    (t : Nat) (d now : Int) : evRun (es ++ [.call core (.start t d now)]) p = .panic := by
  have hlen : ∀ (es : List Ev) (p q : List Core), evRun es p = .ok q → q.length = p.length := by
    intro es
    induction es with
    | nil => intro p q h; cases h; rfl
    | cons e es ih =>
      intro p q h
      rw [evRun] at h
      obtain ⟨p1, h1, h2⟩ := bind_ok h
      rw [ih p1 q h2]
      cases e with
      | call k c =>
        rw [evStep] at h1
        split at h1
        · cases h1
        · obtain ⟨r, _, r2⟩ := bind_ok h1
          cases r2; rw [List.length_set]
      | round k f n =>
        rw [evStep] at h1
        split at h1
        · cases h1; rfl
        · split at h1
          · obtain ⟨r, _, r2⟩ := bind_ok h1
            cases r2; rw [List.length_set]
          · cases h1; rfl
  have happ : ∀ (es : List Ev) (p : List Core) (e : Ev), evRun es p = .ok q →
      evRun (es ++ [e]) p = (evStep q e).bind fun r => .ok r := by
    intro es
    induction es with
    | nil => intro p e h; cases h; rfl
    | cons a es ih =>
      intro p e h
      rw [evRun] at h
      obtain ⟨p1, h1, h2⟩ := bind_ok h
      rw [List.cons_append, evRun, h1]
      exact ih p1 e h2
  obtain ⟨p', q1, q2, _⟩ := C165_start_up_partial cpus procs on h
  rw [hp] at q1; cases q1
  rw [happ es p _ hq, evStep, List.getElem?_eq_none (by rw [hlen es p q hq]; omega)]
  rfl

example : ∃ p, initCores 2 2 (fun _ => 4) = some p ∧ evRun ([] ++ [.call 4 (.start 1 10 0)]) p = .panic := by
  obtain ⟨p, h1, _⟩ := C165_start_up_partial 2 2 (fun _ => 4) (by decide)
  exact ⟨p, h1, C165_no_queue_violated 2 2 4 _ (by decide) (by decide) p p h1 [] rfl 1 10 0⟩

/-- **C165**: on a core whose loop runs, the queue does what the calls and rounds on that core alone make of it, whatever
the other cores do.
Missing: more loops than queues, cores without a loop, and core numbers outside the queues
(refuted: `C165_start_up_violated`, `C165_core_number_violated`, `C165_unserved_violated` and
others). -/
theorem C165_cores_apart_partial (cpus procs core : Nat) (on : Nat → Nat) (h : procs ≤ cpus) (hc : core < procs)
    (p q : List Core) (hp : initCores cpus procs on = some p) (es : List Ev) (hq : evRun es p = .ok q) :
    ∃ k, q[core]? = some k ∧ runCalls (onCore core es) Tg.init = .ok k.tg := by
  obtain ⟨p', q1, q2, q3⟩ := C165_start_up_partial cpus procs on h
  rw [hp] at q1; cases q1
  have hl : core < p.length := by omega
  have e := List.getElem?_eq_getElem hl
  obtain ⟨a1, a2, _⟩ := q3 core _ e
  obtain ⟨k', b1, b2, b3⟩ := evRun_core e hq
  rw [a2.mpr hc, a1] at b3
  exact ⟨k', b1, b3⟩

example : ∃ p q, initCores 4 2 (fun _ => 3) = some p ∧ evRun [.call 1 (.start 1 10 0), .round 0 9 1000, .call 0 (.start 2 5 0), .round 1 9 2000] p = .ok q ∧
    ∃ k, q[1]? = some k ∧ runCalls (onCore 1 [.call 1 (.start 1 10 0), .round 0 9 1000, .call 0 (.start 2 5 0), .round 1 9 2000]) Tg.init = .ok k.tg := by
  have h : (match initCores 4 2 (fun _ => 3) with
      | some p => (match evRun [.call 1 (.start 1 10 0), .round 0 9 1000, .call 0 (.start 2 5 0), .round 1 9 2000] p with
        | .ok _ => true
        | _ => false)
      | none => false) = true := by decide +kernel
  split at h
  · rename_i p hp
    split at h
    · rename_i q hq
      exact ⟨p, q, hp, hq, C165_cores_apart_partial 4 2 1 (fun _ => 3) (by decide) (by decide) p q hp _ hq⟩
    · cases h
  · cases h

/-- **C165**: after a round of the loop of a core at `now`, no one-shot timer started on that core is late.  Missing: the
cores without a loop and without a queue, and periodic timers (`C62_periodic_blocks_others_violated`). -/
theorem C165_served_partial (cpus procs core : Nat) (on : Nat → Nat) (h : procs ≤ cpus) (hc : core < procs)
    (p q : List Core) (hp : initCores cpus procs on = some p) (es : List Ev) (fuel : Nat) (now : Int)
    (hpl : ∀ c ∈ onCore core es, c.plain) (hq : evRun (es ++ [.round core fuel now]) p = .ok q) :
    ∃ k, q[core]? = some k ∧ ∀ t w, (armed k.tg).due t = some w → now < w := by
  obtain ⟨k, k1, k2⟩ := C165_cores_apart_partial cpus procs core on h hc p q hp _ hq
  refine ⟨k, k1, ?_⟩
  have hon : ∀ es : List Ev, onCore core (es ++ [.round core fuel now]) = onCore core es ++ [.check fuel now] := by
    intro es
    induction es with
    | nil => simp [onCore]
    | cons a es ih =>
      cases a with
      | call k c => simp only [List.cons_append, onCore, ih]; split <;> rfl
      | round k f n => simp only [List.cons_append, onCore, ih]; split <;> rfl
  have hap : ∀ (cs : List Call) (tg tg' : Tg), runCalls (cs ++ [.check fuel now]) tg = .ok tg' →
      ∃ tg1 nw ran, runCalls cs tg = .ok tg1 ∧ checkTimers fuel tg1 now = .ok (tg', nw, ran) := by
    intro cs
    induction cs with
    | nil =>
      intro tg tg' h
      rw [List.nil_append, runCalls] at h
      obtain ⟨r, h1, h2⟩ := bind_ok h
      rw [Call.run] at h1
      obtain ⟨r', h3, h4⟩ := bind_ok h1
      cases h4; cases h2
      exact ⟨tg, r'.2.1, r'.2.2, rfl, h3⟩
    | cons c cs ih =>
      intro tg tg' h
      rw [List.cons_append, runCalls] at h
      obtain ⟨r, h1, h2⟩ := bind_ok h
      obtain ⟨tg1, nw, ran, a1, a2⟩ := ih _ _ h2
      refine ⟨tg1, nw, ran, ?_, a2⟩
      rw [runCalls, h1]
      exact a1
  rw [hon] at k2
  obtain ⟨tg1, nw, ran, r1, r2⟩ := hap _ _ _ k2
  exact C62_due_timers_run_partial _ hpl tg1 r1 fuel now k.tg nw ran r2

/-- Core 0 serves its timer at 12 although core 1 has one that is later in time and one that is due. -/
example : runsTo 2 2 ([.call 0 (.start 1 10 0), .call 1 (.start 2 5 0)] ++ [.round 0 9 12]) 0
    (fun tg => decide (tg.fired = [(1, 12)])) = true := by decide +kernel

end Memar.Timer.Queue
