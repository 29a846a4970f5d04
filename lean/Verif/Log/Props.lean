import Verif.Log.Model

/-!
# Properties of logging and recovery from panics (C137)
-/

namespace Memar.Log
open Memar

namespace LSpec

variable {D L : Type}

/-- What is to be logged of a value panicked with: an event as it is; of anything else an event of level error with the current stack and with what
the value has to say, by the first of these that it has: a log message, the identifier of a framework error, the text of a Go error, the text itself,
its string form; or else what `fmt.Sprint` prints. Only events and framework errors have a domain of their own. -/
inductive Says (dt : D) (v : Val D) : D → Bytes → Prop
  | message (m) : v.message = some (some m) → Says dt v dt m
  | err (d id) : v.message = none → v.err = some (some (d, id)) → Says dt v d id
  | goError (m) : v.message = none → v.err = none → v.goError = some (some m) → Says dt v dt m
  | str (m) : v.message = none → v.err = none → v.goError = none → v.str = some m → Says dt v dt m
  | toStr (m) : v.message = none → v.err = none → v.goError = none → v.str = none → v.toStr = some (some m) → Says dt v dt m
  | stringer (m) : v.message = none → v.err = none → v.goError = none → v.str = none → v.toStr = none → v.stringer = some (some m) → Says dt v dt m
  | other : v.message = none → v.err = none → v.goError = none → v.str = none → v.toStr = none → v.stringer = none → Says dt v dt v.sprint

/-- The event to be logged for a value. -/
inductive Logs (dt : D) (now : Int) (trace : Bytes) (v : Val D) : Event D → Prop
  | own (e) : v.own = some (some e) → Logs dt now trace v e
  | event (e) : v.own = none → v.event = some (some e) → Logs dt now trace v { e with time := now }
  | other (d m) : v.own = none → v.event = none → Says dt v d m → Logs dt now trace v ⟨d, now, 64, m, trace⟩

/-- None of the methods of the value panics. -/
def Sound (v : Val D) : Prop :=
  v.own ≠ some none ∧ v.event ≠ some none ∧ v.message ≠ some none ∧ v.err ≠ some none ∧ v.goError ≠ some none ∧ v.toStr ≠ some none ∧
    v.stringer ≠ some none

end LSpec
open LSpec

variable {D L : Type}

theorem says_panicEvent (dt : D) (now : Int) (trace : Bytes) (v : Val D) (e : Event D) (h : Logs dt now trace v e) :
    panicEvent dt now trace v = some (some e) := by
  cases h with
  | own _ h => simp [panicEvent, h]
  | event e' h1 h2 => simp [panicEvent, h1, h2, Event.init]
  | other d m h1 h2 h3 =>
    cases h3 with
    | message _ h => simp [panicEvent, h1, h2, h, Event.initUtf8, Event.init, Level.bits, Level.iota]
    | err _ _ h3 h => simp [panicEvent, h1, h2, h3, h, Event.initUtf8, Event.init, Level.bits, Level.iota]
    | goError _ h3 h4 h => simp [panicEvent, h1, h2, h3, h4, h, Event.initUtf8, Event.init, Level.bits, Level.iota]
    | str _ h3 h4 h5 h => simp [panicEvent, h1, h2, h3, h4, h5, h, Event.initUtf8, Event.init, Level.bits, Level.iota]
    | toStr _ h3 h4 h5 h6 h => simp [panicEvent, h1, h2, h3, h4, h5, h6, h, Event.initUtf8, Event.init, Level.bits, Level.iota]
    | stringer _ h3 h4 h5 h6 h7 h => simp [panicEvent, h1, h2, h3, h4, h5, h6, h7, h, Event.initUtf8, Event.init, Level.bits, Level.iota]
    | other h3 h4 h5 h6 h7 h => simp [panicEvent, h1, h2, h3, h4, h5, h6, h7, h, Event.initUtf8, Event.init, Level.bits, Level.iota]

theorem sound_logs (dt : D) (now : Int) (trace : Bytes) (v : Val D) (h : Sound v) : ∃ e, Logs dt now trace v e := by
  obtain ⟨own, event, message, err, goError, str, toStr, stringer, sprint⟩ := v
  obtain ⟨h1, h2, h3, h4, h5, h6, h7⟩ := h
  simp only at h1 h2 h3 h4 h5 h6 h7
  match own, h1 with
  | some (some e), _ => exact ⟨e, .own e rfl⟩
  | none, _ =>
    match event, h2 with
    | some (some e), _ => exact ⟨_, .event e rfl rfl⟩
    | none, _ =>
      suffices g : ∃ d m, Says dt ⟨none, none, message, err, goError, str, toStr, stringer, sprint⟩ d m by
        obtain ⟨d, m, g⟩ := g
        exact ⟨_, .other d m rfl rfl g⟩
      match message, h3 with
      | some (some m), _ => exact ⟨_, _, .message m rfl⟩
      | none, _ =>
        match err, h4 with
        | some (some m), _ => exact ⟨_, _, .err m.1 m.2 rfl rfl⟩
        | none, _ =>
          match goError, h5 with
          | some (some m), _ => exact ⟨_, _, .goError m rfl rfl rfl⟩
          | none, _ =>
            match str with
            | some m => exact ⟨_, _, .str m rfl rfl rfl rfl⟩
            | none =>
              match toStr, h6 with
              | some (some m), _ => exact ⟨_, _, .toStr m rfl rfl rfl rfl rfl⟩
              | none, _ =>
                match stringer, h7 with
                | some (some m), _ => exact ⟨_, _, .stringer m rfl rfl rfl rfl rfl rfl⟩
                | none, _ => exact ⟨_, _, .other rfl rfl rfl rfl rfl rfl⟩

theorem callAll_quiet (panics : L → Option (Event D) → Bool) (e : Option (Event D)) (ls : List L) (h : ∀ l ∈ ls, panics l e = false) :
    callAll panics e ls = (ls.map fun l => (l, e), .returned) := by
  induction ls with
  | nil => rfl
  | cons l ls ih =>
    rw [callAll, if_neg (by simp [h l (by simp)]), ih (fun l' hl => h l' (by simp [hl]))]
    rfl

theorem dispatch_quiet (panics : L → Option (Event D) → Bool) (s : Logger D L) (e : Option (Event D)) (hs : s.locked = false)
    (h : ∀ l ∈ s.ls, panics l e = false) : dispatch panics s e = ({ s with calls := s.calls ++ s.ls.map fun l => (l, e) }, .returned) := by
  simp only [dispatch, hs, callAll_quiet panics e s.ls h]
  rfl

/-! ## C137 -/

/-- C266: a panic is recovered from and logged once: every listener is called once, in order, with the one event that says what the value says, the
handler returns, and the logger can be used as before. Missing: listeners and values whose methods panic, see below. -/
theorem C266_recover_partial (panics : L → Option (Event D) → Bool) (dt : D) (now : Int) (trace : Bytes) (s : Logger D L) (v : Val D)
    (hv : Sound v) (hs : s.locked = false) (hp : ∀ l ∈ s.ls, ∀ e, panics l e = false) :
    ∃ e, Logs dt now trace v e ∧ (∀ e', Logs dt now trace v e' → e' = e) ∧
      panicHandler panics dt now trace s (some v) = ({ s with calls := s.calls ++ s.ls.map fun l => (l, some e) }, .returned) := by
  obtain ⟨e, he⟩ := sound_logs dt now trace v hv
  refine ⟨e, he, fun e' he' => ?_, ?_⟩
  · have h1 := says_panicEvent dt now trace v e he
    have h2 := says_panicEvent dt now trace v e' he'
    rw [h1] at h2
    simpa using h2.symm
  · simp only [panicHandler, says_panicEvent dt now trace v e he]
    exact dispatch_quiet panics s (some e) hs (fun l hl => hp l hl _)

/-- C137: without a panic the handler does nothing. -/
theorem C137_no_panic (panics : L → Option (Event D) → Bool) (dt : D) (now : Int) (trace : Bytes) (s : Logger D L) :
    panicHandler panics dt now trace s none = (s, .returned) := rfl

/-- C266: a text that is logged reaches every listener once, in order, with its domain, text and time, with the level of the function it is logged by,
and with the stack for the functions that trace. Missing: listeners that panic. -/
theorem C266_helpers_partial (panics : L → Option (Event D) → Bool) (now : Int) (trace : Bytes) (s : Logger D L) (h : Helper) (dt : D) (m : Bytes)
    (hs : s.locked = false) (hp : ∀ l ∈ s.ls, ∀ e, panics l e = false) :
    ∃ lv st, h.log panics now trace s dt m = ({ s with calls := s.calls ++ s.ls.map fun l => (l, some ⟨dt, now, lv, m, st⟩) }, .returned) ∧
      (match h with
        | .trace l => lv = l ∧ st = trace | .info => lv = 4 ∧ st = [] | .notice => lv = 16 ∧ st = [] | .error => lv = 64 ∧ st = trace
        | .debug => lv = 256 ∧ st = [] | .deepDebug => lv = 1024 ∧ st = trace | .warn => lv = 4096 ∧ st = [] | .fatal => lv = 1048576 ∧ st = trace
        | .conf => lv = 16777216 ∧ st = []) := by
  refine ⟨_, _, dispatch_quiet panics s _ hs (fun l hl => hp l hl _), ?_⟩
  cases h <;> exact ⟨rfl, rfl⟩

/-- C137: each level is a bit of its own, so that any set of levels can be told from every other by the levels in it. -/
theorem C137_levels (a b : Level) : (a.bits &&& b.bits ≠ 0 ↔ a = b) ∧ a.bits ≠ 0 := by
  constructor
  · cases a <;> cases b <;> decide
  · cases a <;> decide

/-- C266: `FatalError` in a goroutine with the handler: without an error nothing is logged, and a framework error (which is no log message) is logged
once by every listener, under its own domain and with its identifier. Missing: listeners that panic. -/
theorem C266_fatal_partial (panics : L → Option (Event D) → Bool) (dt : D) (now : Int) (trace : Bytes) (s : Logger D L)
    (hs : s.locked = false) (hp : ∀ l ∈ s.ls, ∀ e, panics l e = false) :
    panicHandler panics dt now trace s (fatalError none) = (s, .returned) ∧
    ∀ v d id, v.own = none → v.event = none → v.message = none → v.err = some (some (d, id)) →
      panicHandler panics dt now trace s (fatalError (some v)) =
        ({ s with calls := s.calls ++ s.ls.map fun l => (l, some ⟨d, now, 64, id, trace⟩) }, .returned) := by
  refine ⟨rfl, fun v d id h1 h2 h3 h4 => ?_⟩
  simp only [fatalError, panicHandler, says_panicEvent dt now trace v _ (.other d id h1 h2 (.err d id h3 h4))]
  exact dispatch_quiet panics s _ hs (fun l hl => hp l hl _)

theorem callAll_panic (panics : L → Option (Event D) → Bool) (e : Option (Event D)) (ls1 : List L) (l : L) (ls2 : List L)
    (h1 : ∀ x ∈ ls1, panics x e = false) (h2 : panics l e = true) :
    callAll panics e (ls1 ++ l :: ls2) = (ls1.map (fun l => (l, e)) ++ [(l, e)], .panicked) := by
  induction ls1 with
  | nil => simp [callAll, h2]
  | cons x ls1 ih =>
    rw [List.cons_append, callAll, if_neg (by simp [h1 x (by simp)]), ih (fun y hy => h1 y (by simp [hy]))]
    rfl

theorem blocked_act (panics : L → Option (Event D) → Bool) (dt : D) (now : Int) (trace : Bytes) (s : Logger D L) (hs : s.locked = true) (a : Act D) :
    (act panics dt now trace s a).1 = s := by
  cases a with
  | log h d m => simp [act, Helper.log, dispatch, hs]
  | recover v =>
    cases v with
    | none => rfl
    | some v =>
      simp only [act, panicHandler]
      split
      · simp [dispatch, hs]
      · rfl

/-- C266 violated: a listener that panics ends all logging. Whatever is logged when it happens, the listeners behind it are not called, the panic goes
on to the caller, and from then on every call that logs, and every recovery from a panic, waits for ever: no listener is ever called again. -/
theorem C266_listener_violated (panics : L → Option (Event D) → Bool) (dt : D) (s : Logger D L) (e : Option (Event D)) (hs : s.locked = false)
    (ls1 ls2 : List L) (l : L) (hl : s.ls = ls1 ++ l :: ls2) (h1 : ∀ x ∈ ls1, panics x e = false) (h2 : panics l e = true) :
    ∃ s', dispatch panics s e = (s', .panicked) ∧ s'.calls = s.calls ++ ls1.map (fun l => (l, e)) ++ [(l, e)] ∧
      ∀ as, acts panics dt s' as = s' ∧
        (∀ h now trace d m, (Helper.log panics now trace (acts panics dt s' as) h d m).2 = .blocked) ∧
        (∀ now trace v, Sound v → (panicHandler panics dt now trace (acts panics dt s' as) (some v)).2 = .blocked) := by
  refine ⟨{ s with locked := true, calls := s.calls ++ (ls1.map (fun l => (l, e)) ++ [(l, e)]) }, ?_, ?_, fun as => ?_⟩
  · simp only [dispatch, hs, hl, callAll_panic panics e ls1 l ls2 h1 h2]; rfl
  · simp
  · have ha : ∀ (s' : Logger D L), s'.locked = true → acts panics dt s' as = s' := by
      intro s' hs'
      induction as with
      | nil => rfl
      | cons a as ih => rw [acts, blocked_act panics dt a.1 a.2.1 s' hs', ih]
    rw [ha _ rfl]
    refine ⟨rfl, fun h now trace d m => by simp [Helper.log, dispatch], fun now trace v hv => ?_⟩
    obtain ⟨e', he'⟩ := sound_logs dt now trace v hv
    simp [panicHandler, says_panicEvent dt now trace v e' he', dispatch]

/-- C266 violated: a value whose own method panics, such as a nil pointer that is a Go error, is not recovered from: the handler panics and nothing is
logged. -/
theorem C266_method_violated (panics : L → Option (Event D) → Bool) (dt : D) (now : Int) (trace : Bytes) (s : Logger D L) (v : Val D)
    (h1 : v.own = none) (h2 : v.event = none) (h3 : v.message = none) (h4 : v.err = none) (h5 : v.goError = some none) :
    panicHandler panics dt now trace s (some v) = (s, .panicked) := by
  simp [panicHandler, panicEvent, h1, h2, h3, h4, h5]

/-- C266 violated: a log event of another kind that is panicked with is logged with the time of the recovery, and its own time is lost. -/
theorem C266_time_violated (panics : L → Option (Event D) → Bool) (dt : D) (now : Int) (trace : Bytes) (s : Logger D L) (v : Val D) (e : Event D)
    (h1 : v.own = none) (h2 : v.event = some (some e)) (hs : s.locked = false) (hp : ∀ l ∈ s.ls, ∀ e, panics l e = false) :
    (panicHandler panics dt now trace s (some v)).1.calls = s.calls ++ s.ls.map fun l => (l, some { e with time := now }) := by
  simp only [panicHandler, says_panicEvent dt now trace v _ (.event e h1 h2)]
  rw [dispatch_quiet panics s _ hs (fun l hl => hp l hl _)]

/-- C266 violated: a nil event that is panicked with reaches the listeners as a nil event. -/
theorem C266_nil_event_violated (panics : L → Option (Event D) → Bool) (dt : D) (now : Int) (trace : Bytes) (s : Logger D L) (v : Val D)
    (h1 : v.own = some none) (hs : s.locked = false) (hp : ∀ l ∈ s.ls, ∀ e, panics l e = false) :
    (panicHandler panics dt now trace s (some v)).1.calls = s.calls ++ s.ls.map fun l => (l, none) := by
  simp only [panicHandler, panicEvent, h1]
  rw [dispatch_quiet panics s _ hs (fun l hl => hp l hl _)]

/-! ## Examples -/

/-- `panic("no")`. -/
def text : Val Nat := ⟨none, none, none, none, none, some [110, 111], none, none, [110, 111]⟩
/-- `panic(err)` of a Go error. -/
def goErr : Val Nat := ⟨none, none, none, none, some (some [69]), none, none, none, [69]⟩
example : Sound text ∧ Sound goErr := by simp [Sound, text, goErr]
example : panicHandler (fun _ _ => false) 7 5 [1, 1] ⟨false, [1, 2], []⟩ (some text) =
    (⟨false, [1, 2], [(1, some ⟨7, 5, 64, [110, 111], [1, 1]⟩), (2, some ⟨7, 5, 64, [110, 111], [1, 1]⟩)]⟩, .returned) := rfl
example : Helper.info.log (fun _ _ => false) 5 [1, 1] (⟨false, [1], []⟩ : Logger Nat Nat) 3 [104] =
    (⟨false, [1], [(1, some ⟨3, 5, 4, [104], []⟩)]⟩, .returned) := rfl
/-- The second of three listeners panics. -/
example : dispatch (fun l _ => l == 2) (⟨false, [1, 2, 3], []⟩ : Logger Nat Nat) none = (⟨true, [1, 2, 3], [(1, none), (2, none)]⟩, .panicked) := rfl

example := C266_recover_partial (fun _ _ => false) 7 5 [1, 1] (⟨false, [1, 2], []⟩ : Logger Nat Nat) text (by simp [Sound, text]) rfl (by simp)
example := C266_helpers_partial (fun _ _ => false) 5 [1, 1] (⟨false, [1, 2], []⟩ : Logger Nat Nat) .deepDebug 3 [104] rfl (by simp)
example := (C266_fatal_partial (fun _ _ => false) 7 5 [1, 1] (⟨false, [1, 2], []⟩ : Logger Nat Nat) rfl (by simp)).2
  ⟨none, none, none, some (some (9, [88])), none, none, none, none, []⟩ 9 [88] rfl rfl rfl rfl
example := C266_listener_violated (fun l _ => l == 2) 7 (⟨false, [1, 2, 3], []⟩ : Logger Nat Nat) none rfl [1] [3] 2 rfl (by simp) rfl
example := C266_method_violated (fun _ _ => false) 7 5 [1, 1] (⟨false, [1, 2], []⟩ : Logger Nat Nat)
  ⟨none, none, none, none, some none, none, none, none, []⟩ rfl rfl rfl rfl rfl
example := C266_time_violated (fun _ _ => false) 7 5 [1, 1] (⟨false, [1, 2], []⟩ : Logger Nat Nat)
  ⟨none, some (some ⟨9, 2, 64, [104], []⟩), none, none, none, none, none, none, []⟩ ⟨9, 2, 64, [104], []⟩ rfl rfl rfl (by simp)
example := C266_nil_event_violated (fun _ _ => false) 7 5 [1, 1] (⟨false, [1, 2], []⟩ : Logger Nat Nat)
  ⟨some none, none, none, none, none, none, none, none, []⟩ rfl rfl (by simp)

end Memar.Log
