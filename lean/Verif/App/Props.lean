import Verif.App.Model

/-!
# Properties of the application's life cycle and of status announcements (C120, C121)
-/

namespace Memar.App

/-! ## C120: the life cycle -/

/-- **C120**: a change of status is stored, and no listener can hold it up: every listener that waits, or has room, gets exactly
the new status behind what it already had, and the others are left as they were. -/
theorem C120_change_announced (a : App) (s : AStatus) :
    (a.changeState s).status = s ∧ (a.changeState s).listeners.length = a.listeners.length ∧
    ∀ (i : Nat) (c : Chan AStatus), a.listeners[i]? = some c →
      ∃ c', (a.changeState s).listeners[i]? = some c' ∧
        c'.got ++ c'.queue.drop c.queue.length =
          (if 0 < c.waiting ∨ c.queue.length < c.cap then c.got ++ [s] else c.got) ∧
        c'.queue.take c.queue.length = c.queue := by
  refine ⟨rfl, by simp [App.changeState], ?_⟩
  intro i c hc
  refine ⟨c.trySend s, by simp [App.changeState, hc], ?_, ?_⟩
  · unfold Chan.trySend
    by_cases h1 : 0 < c.waiting
    · simp [h1]
    · rw [if_neg h1]
      by_cases h2 : c.queue.length < c.cap
      · simp [h2]
      · simp [h2, h1]
  · unfold Chan.trySend
    by_cases h1 : 0 < c.waiting
    · simp [h1]
    · rw [if_neg h1]
      by_cases h2 : c.queue.length < c.cap
      · simp [h2]
      · simp [h2]

/-- The capacity of a listener is kept: no announcement overfills it. -/
theorem C120_within_capacity (a : App) (s : AStatus) (h : ∀ c ∈ a.listeners, c.queue.length ≤ c.cap) :
    ∀ c ∈ (a.changeState s).listeners, c.queue.length ≤ c.cap := by
  intro c hc
  simp only [App.changeState, List.mem_map] at hc
  obtain ⟨c0, hm, rfl⟩ := hc
  have := h c0 hm
  unfold Chan.trySend
  split
  · exact this
  · split
    · simp; omega
    · exact this

example := C120_within_capacity ⟨.running, [⟨1, [.starting], 0, []⟩, ⟨2, [.starting], 1, []⟩]⟩ .stopping (by decide)

theorem trySend_keeps {α : Type} (c : Chan α) (v : α) :
    (c.trySend v).cap = c.cap ∧ c.got <+: (c.trySend v).got ∧ c.queue <+: (c.trySend v).queue := by
  unfold Chan.trySend
  split
  · exact ⟨rfl, List.prefix_append _ _, List.prefix_refl _⟩
  · split
    · exact ⟨rfl, List.prefix_refl _, List.prefix_append _ _⟩
    · exact ⟨rfl, List.prefix_refl _, List.prefix_refl _⟩

/-- The listeners an event adds. -/
def added : Ev → List (Chan AStatus)
  | .notify c => [c]
  | _ => []

/-- A listener is still there: the same channel, with all it was told. -/
def Kept (c c' : Chan AStatus) : Prop := c'.cap = c.cap ∧ c.got <+: c'.got ∧ c.queue <+: c'.queue

/-- All listeners are still there, in their order, and no others. -/
def AllKept (l l' : List (Chan AStatus)) : Prop :=
  l'.length = l.length ∧ ∀ (i : Nat) (c : Chan AStatus), l[i]? = some c → ∃ c', l'[i]? = some c' ∧ Kept c c'

theorem AllKept.refl (l) : AllKept l l := ⟨rfl, fun _ c h => ⟨c, h, rfl, List.prefix_refl _, List.prefix_refl _⟩⟩

theorem AllKept.trans {l l' l''} (h : AllKept l l') (h' : AllKept l' l'') : AllKept l l'' := by
  refine ⟨h'.1.trans h.1, ?_⟩
  intro i c hi
  obtain ⟨c', e', k1, k2, k3⟩ := h.2 i c hi
  obtain ⟨c'', e'', m1, m2, m3⟩ := h'.2 i c' e'
  exact ⟨c'', e'', m1.trans k1, k2.trans m2, k3.trans m3⟩

theorem AllKept.append {l l'} (h : AllKept l l') (r : List (Chan AStatus)) : AllKept (l ++ r) (l' ++ r) := by
  refine ⟨by simp [h.1], ?_⟩
  intro i c hi
  by_cases hl : i < l.length
  · rw [List.getElem?_append_left hl] at hi
    obtain ⟨c', e', k⟩ := h.2 i c hi
    exact ⟨c', by rw [List.getElem?_append_left (by rw [h.1]; exact hl)]; exact e', k⟩
  · rw [List.getElem?_append_right (by omega)] at hi
    exact ⟨c, by rw [List.getElem?_append_right (by rw [h.1]; omega), h.1]; exact hi, rfl, List.prefix_refl _, List.prefix_refl _⟩

theorem changeState_kept (a : App) (s : AStatus) : AllKept a.listeners (a.changeState s).listeners := by
  refine ⟨by simp [App.changeState], ?_⟩
  intro i c hi
  exact ⟨c.trySend s, by simp [App.changeState, hi], trySend_keeps c s⟩

theorem ev_kept (a : App) (e : Ev) : AllKept (a.listeners ++ added e) (a.ev e).listeners := by
  cases e with
  | init p =>
    have : (a.ev (.init p)) = a.changeState .starting := by
      simp only [App.ev, App.init]; cases p.eventInit <;> rfl
    rw [this]
    simpa [added] using changeState_kept a .starting
  | reinit => simpa [added, App.ev, App.reinit] using AllKept.refl a.listeners
  | notify c => exact AllKept.refl _
  | signal p s =>
    have : a.ev (.signal p s) = a ∨ a.ev (.signal p s) = (a.changeState .stopping).changeState .stopping := by
      simp only [App.ev, App.osSignal, App.reinit, App.deinit]
      cases s <;> simp only <;> first
        | exact Or.inl trivial
        | exact Or.inl rfl
        | (split
           · right; cases p.cryptoDeinit <;> rfl
           · exact Or.inl rfl)
    simp only [added, List.append_nil]
    rcases this with h | h <;> rw [h]
    · exact AllKept.refl _
    · exact (changeState_kept a _).trans (changeState_kept _ _)

/-- **C120**: in every history of calls and signals, whoever asked to be told about the status stays asked: the listeners are
those of the beginning and those added since, in this order and no others, and none of them loses what it was told. -/
theorem C120_listeners_kept (a : App) (es : List Ev) :
    (es.foldl App.ev a).listeners.length = (a.listeners ++ es.flatMap added).length ∧
    ∀ (i : Nat) (c : Chan AStatus), (a.listeners ++ es.flatMap added)[i]? = some c →
      ∃ c', (es.foldl App.ev a).listeners[i]? = some c' ∧
        c'.cap = c.cap ∧ c.got <+: c'.got ∧ c.queue <+: c'.queue := by
  suffices h : AllKept (a.listeners ++ es.flatMap added) (es.foldl App.ev a).listeners from h
  induction es generalizing a with
  | nil => simpa using AllKept.refl a.listeners
  | cons e es ih =>
    rw [List.foldl_cons, List.flatMap_cons, ← List.append_assoc]
    exact ((ev_kept a e).append _).trans (ih _)

example : ([Ev.notify ⟨2, [], 0, []⟩, .init ⟨none, none, none, none, none⟩, .notify ⟨3, [], 0, []⟩, .reinit].foldl App.ev
    App.zero).listeners = [⟨2, [.starting], 0, []⟩, ⟨3, [], 0, []⟩] := by decide

/-- C222 violated: every change of status reaches every listener. Here a listener that is not waiting and has no room never hears
of it. -/
theorem C222_change_dropped_violated (a : App) (s : AStatus) (i : Nat) (c : Chan AStatus) (hi : a.listeners[i]? = some c)
    (hw : c.waiting = 0) (hf : c.cap ≤ c.queue.length) :
    (a.changeState s).listeners[i]? = some c ∧ (a.changeState s).status = s := by
  refine ⟨?_, rfl⟩
  have h2 : ¬ c.queue.length < c.cap := by omega
  simp [App.changeState, hi, Chan.trySend, hw, h2]

example := C222_change_dropped_violated ⟨.running, [⟨1, [.starting], 0, []⟩]⟩ .stopping 0 _ rfl rfl (by decide)

theorem ev_status (a : App) (e : Ev) (h : a.status ≠ .running) : (a.ev e).status ≠ .running ∧ (a.ev e).status ≠ .stopping ∨
    (a.ev e).status = a.status := by
  cases e with
  | init p =>
    left
    simp only [App.ev, App.init]
    cases p.eventInit <;> simp [App.changeState]
  | reinit => right; rfl
  | notify c => right; rfl
  | signal p s => right; cases s <;> simp [App.ev, App.osSignal, h, App.reinit]

theorem run_status (a : App) (es : List Ev) (h : a.status = .unset ∨ a.status = .starting) :
    (es.foldl App.ev a).status = .unset ∨ (es.foldl App.ev a).status = .starting := by
  induction es generalizing a with
  | nil => exact h
  | cons e es ih =>
    apply ih
    rcases ev_status a e (by rcases h with h | h <;> rw [h] <;> simp) with ⟨h1, h2⟩ | h1
    · cases hs : (a.ev e).status with
      | unset => simp
      | starting => simp
      | running => exact absurd hs h1
      | stopping => exact absurd hs h2
    · rw [h1]; exact h

/-- C222 violated: an application that was started is running, and a signal to stop it stops it. Here no history of calls ever
makes it running, so in every history every signal to stop is ignored: no part is stopped and the status does not change. -/
theorem C222_never_stops_violated (es : List Ev) (p : Parts) (s : Signal) :
    (es.foldl App.ev App.zero).status ≠ .running ∧
    (es.foldl App.ev App.zero).osSignal p s = (es.foldl App.ev App.zero, []) := by
  have h := run_status App.zero es (Or.inl rfl)
  have hr : (es.foldl App.ev App.zero).status ≠ .running := by rcases h with h | h <;> rw [h] <;> simp
  refine ⟨hr, ?_⟩
  cases s <;> simp [App.osSignal, hr, App.reinit]

/-- C222 violated: `Init` reports the failure of any part. Here the failure of the cryptography is dropped: whatever it is, the
answer is that of the packet listener. -/
theorem C222_init_error_dropped_violated (a : App) (p : Parts) (e : Option Nat) :
    a.init { p with cryptoInit := e } = a.init p ∧ (p.eventInit = none → (a.init p).2.1 = p.listenerInit) := by
  refine ⟨rfl, ?_⟩
  intro h
  simp [App.init, h]

/-- **C222** (partial: the error of the cryptography is dropped): `Init` makes the status "starting", and a failure of the event
target ends it with that error before any other part is started; otherwise all parts are started in order.
Missing: the error of the cryptography, and that the application then runs (refuted: `C222_init_error_dropped_violated`, `C222_never_stops_violated`). -/
theorem C222_init_partial (a : App) (p : Parts) :
    (a.init p).1.status = .starting ∧
    (∀ e, p.eventInit = some e → (a.init p).2 = (some e, [.eventInit])) ∧
    (p.eventInit = none → (a.init p).2.2 = [.eventInit, .manifestInit, .cryptoInit, .listenerInit]) := by
  refine ⟨?_, ?_, ?_⟩
  · simp only [App.init]; cases p.eventInit <;> rfl
  · intro e h; simp [App.init, h]
  · intro h; simp [App.init, h]

/-- **C222**: a running application stops on each of the four signals: its status becomes "stopping", the cryptography is stopped
and, unless that fails, the packet listener is; no other signal stops it.
Missing: that an application becomes running, and the announcements (refuted:
`C222_change_dropped_violated`, `C222_never_stops_violated`, `C222_init_error_dropped_violated`
and others). -/
theorem C222_stop_on_signal_partial (a : App) (p : Parts) (s : Signal) (h : a.status = .running) :
    (s = .interrupt ∨ s = .quit ∨ s = .terminated ∨ s = .killed →
      (a.osSignal p s).1.status = .stopping ∧
      (a.osSignal p s).2 = (if p.cryptoDeinit = none then [.cryptoDeinit, .listenerDeinit] else [.cryptoDeinit])) ∧
    (¬ (s = .interrupt ∨ s = .quit ∨ s = .terminated ∨ s = .killed) → a.osSignal p s = (a, [])) := by
  constructor
  · intro hs
    rcases hs with e | e | e | e <;> subst e <;> simp only [App.osSignal, h, if_true, App.deinit] <;>
      cases p.cryptoDeinit <;> exact ⟨rfl, rfl⟩
  · intro hs
    cases s <;> simp_all [App.osSignal, App.reinit]

example := C222_stop_on_signal_partial ⟨.running, [⟨1, [], 0, []⟩]⟩ ⟨none, none, none, none, some 4⟩ .quit rfl

/-- C222 violated: one stop is announced once. Here each listener with room for two gets "stopping" twice. -/
theorem C222_stop_announced_twice_violated (a : App) (p : Parts) (i : Nat) (c : Chan AStatus) (hi : a.listeners[i]? = some c)
    (hw : c.waiting = 0) (hr : c.queue.length + 2 ≤ c.cap) :
    ∃ c', (a.deinit p).1.listeners[i]? = some c' ∧ c'.queue = c.queue ++ [.stopping, .stopping] := by
  have e : (a.deinit p).1 = (a.changeState .stopping).changeState .stopping := by
    unfold App.deinit; dsimp only; cases p.cryptoDeinit <;> rfl
  refine ⟨(c.trySend .stopping).trySend .stopping, by simp [e, App.changeState, hi], ?_⟩
  have h1 : c.queue.length < c.cap := by omega
  have h2 : c.queue.length + 1 < c.cap := by omega
  simp [Chan.trySend, hw, h1, h2]

/-- A listener with room for one status. -/
def exChan : Chan AStatus := ⟨1, [], 0, []⟩

example : ([Ev.notify exChan, .init ⟨none, none, none, none, none⟩].foldl App.ev App.zero) =
    ⟨.starting, [⟨1, [.starting], 0, []⟩]⟩ := by decide
example : ((⟨.running, [exChan]⟩ : App).osSignal ⟨none, none, none, none, none⟩ .quit) =
    (⟨.stopping, [⟨1, [.stopping], 0, []⟩]⟩, [.cryptoDeinit, .listenerDeinit]) := by decide
example : (App.zero.init ⟨none, some 5, none, none, none⟩).2.1 = none := by decide

/-! ## C121: the status of a stream -/

/-- **C121**: the status read is the one last stored, and a compare-and-swap succeeds exactly when the status is the expected one,
then stores the new one, and otherwise changes nothing at all. -/
theorem C121_status_store (s : Stream) (v old new : SStatus) :
    (s.store v).load = v ∧
    (s.load = old → (s.cas old new).2 = true ∧ (s.cas old new).1 = s.store new) ∧
    (s.load ≠ old → s.cas old new = (s, false)) := by
  refine ⟨rfl, ?_, ?_⟩
  · intro h
    have h : s.ss = old := h
    simp [Stream.cas, h, Stream.store]
  · intro h
    have h : ¬ s.ss = old := h
    simp [Stream.cas, h]

theorem op_chan (s : Stream) (o : SOp) (hc : s.chan.cap = 0) (hq : s.chan.queue = []) :
    (s.op o).chan.cap = 0 ∧ (s.op o).chan.queue = [] := by
  have ht : ∀ v, (s.chan.trySend v).cap = 0 ∧ (s.chan.trySend v).queue = [] := by
    intro v
    unfold Chan.trySend
    split
    · exact ⟨hc, hq⟩
    · split
      · exact absurd (by assumption) (by rw [hc]; omega)
      · exact ⟨hc, hq⟩
  cases o with
  | store v => exact ht v
  | cas o n =>
    simp only [Stream.op, Stream.cas]
    split
    · exact ht n
    · exact ⟨hc, hq⟩
  | wait => exact ⟨hc, hq⟩

theorem run_chan (s : Stream) (ops : List SOp) (hc : s.chan.cap = 0) (hq : s.chan.queue = []) :
    (ops.foldl Stream.op s).chan.cap = 0 ∧ (ops.foldl Stream.op s).chan.queue = [] := by
  induction ops generalizing s with
  | nil => exact ⟨hc, hq⟩
  | cons o ops ih => obtain ⟨h1, h2⟩ := op_chan s o hc hq; exact ih _ h1 h2

/-- The statuses a history of operations announces, from a status on: every store, and every swap that succeeds. -/
def announced : SStatus → List SOp → List SStatus
  | _, [] => []
  | _, .store v :: os => v :: announced v os
  | s, .cas o n :: os => if s = o then n :: announced n os else announced s os
  | s, .wait :: os => announced s os

/-- The announcements of a history that come while a goroutine waits: each wakes one. -/
def heard : Nat → SStatus → List SOp → List SStatus
  | _, _, [] => []
  | w, _, .store v :: os => if w = 0 then heard 0 v os else v :: heard (w - 1) v os
  | w, s, .cas o n :: os =>
    if s = o then (if w = 0 then heard 0 n os else n :: heard (w - 1) n os) else heard w s os
  | w, s, .wait :: os => heard (w + 1) s os

/-- **C121**: what the waiting goroutines are told, over every history: exactly the changes announced while one of them waited,
in order, one per waiter; the status itself is always the last one announced. -/
theorem C121_told (is : SStatus) (ops : List SOp) (s0 : Stream) :
    (ops.foldl Stream.op (s0.init is)).chan.got = heard 0 is ops ∧
    (ops.foldl Stream.op (s0.init is)).load = ((announced is ops).getLast?).getD is := by
  have key : ∀ (ops : List SOp) (s : Stream), s.chan.cap = 0 → s.chan.queue = [] →
      (ops.foldl Stream.op s).chan.got = s.chan.got ++ heard s.chan.waiting s.ss ops ∧
      (ops.foldl Stream.op s).ss = ((announced s.ss ops).getLast?).getD s.ss := by
    intro ops
    induction ops with
    | nil => intro s _ _; simp [heard, announced]
    | cons o ops ih =>
      intro s hc hq
      obtain ⟨c1, c2⟩ := op_chan s o hc hq
      obtain ⟨g1, g2⟩ := ih (s.op o) c1 c2
      have hst : ∀ v, (s.store v).ss = v ∧
          (s.store v).chan.got ++ heard (s.store v).chan.waiting v ops =
            s.chan.got ++ (if s.chan.waiting = 0 then heard 0 v ops else v :: heard (s.chan.waiting - 1) v ops) := by
        intro v
        refine ⟨rfl, ?_⟩
        unfold Stream.store Chan.trySend
        by_cases hw : s.chan.waiting = 0
        · simp [hw, hc]
        · have : 0 < s.chan.waiting := by omega
          simp [hw, this]
      have hlast : ∀ (v : SStatus) (l : List SStatus) (d : SStatus), ((v :: l).getLast?).getD d = (l.getLast?).getD v := by
        intro v l d
        cases l with
        | nil => rfl
        | cons a t => rw [List.getLast?_cons_cons]; simp [List.getLast?_eq_getLast]
      simp only [List.foldl_cons]
      rw [g1, g2]
      cases o with
      | store v =>
        refine ⟨?_, ?_⟩
        · simp only [Stream.op, heard]; exact (hst v).2
        · simp only [Stream.op, announced, hlast]; rfl
      | cas o n =>
        simp only [Stream.op, Stream.cas, heard, announced]
        by_cases he : s.ss = o
        · simp only [if_pos he, hlast]
          exact ⟨(hst n).2, trivial⟩
        · simp only [if_neg he]
          exact ⟨trivial, trivial⟩
      | wait => exact ⟨rfl, rfl⟩
  have := key ops (s0.init is) rfl rfl
  exact ⟨by rw [this.1]; rfl, this.2⟩

/-- C223 violated: every change of status reaches whoever watches the stream. Here the channel has no buffer, so in every history
a change made while nobody waits is never delivered to anybody. -/
theorem C223_change_missed_violated (is : SStatus) (ops : List SOp) (s0 : Stream) (v : SStatus)
    (hw : (ops.foldl Stream.op (s0.init is)).chan.waiting = 0) :
    ((ops.foldl Stream.op (s0.init is)).store v).chan = (ops.foldl Stream.op (s0.init is)).chan := by
  obtain ⟨h1, h2⟩ := run_chan (s0.init is) ops rfl rfl
  simp [Stream.store, Chan.trySend, hw, h1]

example : ([SOp.store 2, .wait, .cas 2 4, .cas 2 5, .store 6].foldl Stream.op ((⟨0, ⟨0, [], 0, []⟩⟩ : Stream).init 1)) =
    ⟨6, ⟨0, [], 0, [4]⟩⟩ := by decide
example : heard 0 1 [SOp.store 2, .wait, .cas 2 4, .cas 2 5, .store 6] = [4] := by decide

end Memar.App
