import Verif.Event.Props

/-!
# Options of listeners and what an event says of itself, C306

event/options.go, event/event.go and the documentation of event/protocol. `Options` is given to `AddEventListener` and `RemoveEventListener`.
-/

namespace Memar.Event
open Memar

/-! ## Model -/

/-- event/options.go:6-25 `Options` -/
structure Options where
  capture : Bool
  once : Bool
  passive : Bool
deriving DecidableEq, Repr

variable {Cb D T : Type} [DecidableEq Cb]

/-- A call on the target, with the options it is given. -/
inductive OptCall (Cb : Type)
  | add (callback : Cb) (options : Options)
  | remove (callback : Cb) (options : Options)
  | dispatch
deriving DecidableEq

/-- event/target.go:31-65 `DispatchEvent`, `AddEventListener` and `RemoveEventListener` with their options: the listeners afterwards and the callbacks called. -/
def OptCall.code (ls : List (Listener Cb Options)) : OptCall Cb → List (Listener Cb Options) × List Cb
  | .add c o => (Event.add ls c o, [])
  | .remove c _o => (Event.remove ls c, [])
  | .dispatch => (ls, Event.dispatch ls)

/-- Calls one after the other on a new target (event/target.go:25-65): the listeners afterwards and, for each call, the callbacks called. -/
def optRun : List (Listener Cb Options) → List (OptCall Cb) → List (Listener Cb Options) × List (List Cb)
  | ls, [] => (ls, [])
  | ls, x :: h => ((optRun (x.code ls).1 h).1, (x.code ls).2 :: (optRun (x.code ls).1 h).2)

/-- event/event.go:11-14 `Event` -/
structure Occurrence (D T : Type) where
  domain : D
  time : T

/-- event/event.go:17-20 `Init` -/
def Occurrence.init (_e : Occurrence D T) (domain : D) (time : T) : Occurrence D T := ⟨domain, time⟩
/-- event/event.go:24 `Time`: a pointer to the field, through which it is read. -/
def Occurrence.when (e : Occurrence D T) : T := e.time
/-- event/event.go:25 `Cancelable` -/
def Occurrence.cancelable (_e : Occurrence D T) : Bool := false
/-- event/event.go:26 `DefaultPrevented` -/
def Occurrence.defaultPrevented (_e : Occurrence D T) : Bool := false
/-- event/event.go:30 `PreventDefault` -/
def Occurrence.preventDefault (e : Occurrence D T) : Occurrence D T := e

/-! ## Specification

As documented in event/protocol/event-target.go:15-22 and event/options.go:7-20: a listener is not appended if there is one with the same callback and capture;
a removal takes out the one with the same callback and capture; a listener with `Once` is removed when it is called. -/

/-- Specification: the listeners registered, in order, and the callbacks called. -/
def Spec.apply (ls : List (Cb × Options)) : OptCall Cb → List (Cb × Options) × List Cb
  | .add c o => (if ∃ l ∈ ls, l.1 = c ∧ l.2.capture = o.capture then ls else ls ++ [(c, o)], [])
  | .remove c o => (ls.filter fun l => ¬ (l.1 = c ∧ l.2.capture = o.capture), [])
  | .dispatch => (ls.filter fun l => ¬ l.2.once, ls.map (·.1))

/-- Specification: what each call of a history makes a target call. -/
def Spec.calls : List (Cb × Options) → List (OptCall Cb) → List (List Cb)
  | _, [] => []
  | ls, x :: h => (Spec.apply ls x).2 :: Spec.calls (Spec.apply ls x).1 h

/-- Specification: a history that uses no `Once`, always the same capture for one callback, and adds no callback that is registered (`reg`) already. -/
def Spec.Plain (cap : Cb → Bool) : List Cb → List (OptCall Cb) → Prop
  | _, [] => True
  | reg, .add c o :: h => c ∉ reg ∧ o.capture = cap c ∧ o.once = false ∧ Spec.Plain cap (c :: reg) h
  | reg, .remove c o :: h => o.capture = cap c ∧ Spec.Plain cap (reg.filter fun d => d ≠ c) h
  | reg, .dispatch :: h => Spec.Plain cap reg h

/-- Specification: a call without its options. -/
def Spec.bare : OptCall Cb → Nat × Option Cb
  | .add c _ => (0, some c)
  | .remove c _ => (1, some c)
  | .dispatch => (2, none)

/-! ## Proofs -/

theorem mem_dispatch (ls : List (Listener Cb Options)) (c : Cb) : c ∈ Event.dispatch ls ↔ ∃ l ∈ ls, l.eventListener = c := by
  simp [Event.dispatch]

theorem plain_refines (cap : Cb → Bool) : ∀ (h : List (OptCall Cb)) (reg : List Cb) (ls : List (Listener Cb Options)),
    Spec.Plain cap reg h → (∀ c, c ∈ reg ↔ c ∈ Event.dispatch ls) → (Event.dispatch ls).Nodup →
    (∀ l ∈ ls, l.options.capture = cap l.eventListener ∧ l.options.once = false) →
    (optRun ls h).2 = Spec.calls (ls.map fun l => (l.eventListener, l.options)) h := by
  intro h
  induction h with
  | nil => intros; rfl
  | cons x h ih =>
    intro reg ls hp hr hn ho
    rw [optRun, Spec.calls]
    cases x with
    | add c o =>
      obtain ⟨h1, h2, h3, h4⟩ := hp
      have hno : c ∉ Event.dispatch ls := fun hc => h1 ((hr c).mpr hc)
      have hs : ¬ ∃ l ∈ ls.map (fun l => (l.eventListener, l.options)), l.1 = c ∧ l.2.capture = o.capture := by
        rintro ⟨l, hl, hl1, _⟩
        obtain ⟨l', hl', rfl⟩ := List.mem_map.mp hl
        exact hno ((mem_dispatch ls c).mpr ⟨l', hl', hl1⟩)
      simp only [OptCall.code, Spec.apply, if_neg hs]
      rw [ih (c :: reg) (Event.add ls c o) h4]
      · simp [Event.add]
      · intro d
        simp only [List.mem_cons, Event.dispatch, Event.add, List.map_append, List.map_cons, List.map_nil, List.mem_append, List.not_mem_nil, or_false]
        have := hr d
        simp only [Event.dispatch] at this
        rw [this]; exact Or.comm
      · simp only [Event.dispatch, Event.add, List.map_append, List.map_cons, List.map_nil]
        rw [List.nodup_append]
        refine ⟨hn, by simp, ?_⟩
        intro a ha b hb hab
        simp only [List.mem_singleton] at hb
        exact hno (by rw [← hb, ← hab]; exact ha)
      · intro l hl
        simp only [Event.add, List.mem_append, List.mem_singleton] at hl
        rcases hl with hl | rfl
        · exact ho l hl
        · exact ⟨h2, h3⟩
    | remove c o =>
      obtain ⟨h2, h4⟩ := hp
      have hrem : (Event.remove ls c) = ls.filter fun l => l.eventListener ≠ c := by
        rcases C40_remove_earliest ls c with ⟨hc, he⟩ | ⟨pre, o', post, hls, hpre, he⟩
        · rw [he, List.filter_eq_self.mpr]
          intro l hl
          simp only [ne_eq, decide_not, Bool.not_eq_true', decide_eq_false_iff_not]
          exact fun hlc => hc ((mem_dispatch ls c).mpr ⟨l, hl, hlc⟩)
        · have hpost : c ∉ Event.dispatch post := by
            intro hc
            rw [hls] at hn
            simp only [Event.dispatch, List.map_append, List.map_cons] at hn
            rw [List.nodup_append] at hn
            exact (List.nodup_cons.mp hn.2.1).1 hc
          have hf : ∀ q : List (Listener Cb Options), c ∉ Event.dispatch q → (q.filter fun l => l.eventListener ≠ c) = q := by
            intro q hq
            rw [List.filter_eq_self]
            intro l hl
            simp only [ne_eq, decide_not, Bool.not_eq_true', decide_eq_false_iff_not]
            exact fun hlc => hq ((mem_dispatch q c).mpr ⟨l, hl, hlc⟩)
          rw [he, hls, List.filter_append, List.filter_cons, if_neg (by simp), hf pre hpre, hf post hpost]
      have hspec : (ls.map fun l => (l.eventListener, l.options)).filter (fun l => ¬ (l.1 = c ∧ l.2.capture = o.capture)) =
          (Event.remove ls c).map fun l => (l.eventListener, l.options) := by
        rw [hrem, List.filter_map]
        congr 1
        apply List.filter_congr
        intro l hl
        simp only [Function.comp_apply, ne_eq, decide_eq_decide]
        constructor
        · intro hh hc
          exact hh ⟨hc, by rw [(ho l hl).1, h2, hc]⟩
        · intro hh hc
          exact hh hc.1
      simp only [OptCall.code, Spec.apply]
      rw [hspec]
      rw [ih (reg.filter fun d => d ≠ c) (Event.remove ls c) h4]
      · intro d
        rw [hrem, mem_dispatch, List.mem_filter, hr d, mem_dispatch]
        constructor
        · rintro ⟨⟨l, hl, hld⟩, hd⟩
          exact ⟨l, by simp only [ne_eq, decide_not, Bool.not_eq_true', decide_eq_false_iff_not] at hd
                       simp [List.mem_filter, hl, hld, hd], hld⟩
        · rintro ⟨l, hl, hld⟩
          rw [List.mem_filter] at hl
          exact ⟨⟨l, hl.1, hld⟩, by rw [← hld]; exact hl.2⟩
      · rw [hrem]
        unfold Event.dispatch at hn ⊢
        exact List.Nodup.sublist (List.Sublist.map _ List.filter_sublist) hn
      · intro l hl
        rw [hrem] at hl
        exact ho l (List.mem_filter.mp hl).1
    | dispatch =>
      have hf : (ls.map fun l => (l.eventListener, l.options)).filter (fun l => ¬ l.2.once) = ls.map fun l => (l.eventListener, l.options) := by
        rw [List.filter_eq_self]
        intro l hl
        obtain ⟨l', hl', rfl⟩ := List.mem_map.mp hl
        simp [(ho l' hl').2]
      simp only [OptCall.code, Spec.apply]
      rw [hf, ih reg ls hp hr hn ho]
      simp [Event.dispatch]

/-- **C306**, the part that holds: a history without `Once` that uses one capture for each callback and adds no callback that is registered makes exactly the calls
that are documented.
Missing: `Once` (refuted: `C306_once_violated`), adding what is registered (refuted: `C306_twice_violated`), the same callback with and without capture
(refuted: `C306_remove_violated`). -/
theorem C306_plain_partial (cap : Cb → Bool) (h : List (OptCall Cb)) (hp : Spec.Plain cap [] h) : (optRun init h).2 = Spec.calls [] h :=
  plain_refines cap h [] [] hp (fun _ => by simp [Event.dispatch]) (by simp [Event.dispatch]) (fun _ hl => absurd hl (by simp))

example : Spec.Plain (fun c => c = 1) [] [.add 1 ⟨true, false, false⟩, .add 2 ⟨false, false, true⟩, .dispatch, .remove 1 ⟨true, true, false⟩, .dispatch,
      .add 1 ⟨true, false, false⟩, .dispatch] ∧
    Spec.calls [] [.add 1 ⟨true, false, false⟩, .add 2 ⟨false, false, true⟩, .dispatch, .remove 1 ⟨true, true, false⟩, .dispatch,
      .add 1 ⟨true, false, false⟩, .dispatch] = [[], [], [1, 2], [], [2], [], [2, 1]] := by
  unfold Spec.Plain; simp [Spec.Plain, Spec.calls, Spec.apply]

/-- C306 violated: a listener that asks to be called once is called by every dispatch, whatever was done before, for ever: after any history, of `n` dispatches each
calls it. As documented only the first does. -/
theorem C306_once_violated (h : List (OptCall Cb)) (c : Cb) (o : Options) (ho : o.once = true) (n : Nat) :
    (optRun init (h ++ .add c o :: List.replicate n .dispatch)).2.drop (h.length + 1) =
      List.replicate n (Event.dispatch (optRun init h).1 ++ [c]) ∧
    Spec.calls [] (.add c o :: List.replicate (n + 1) .dispatch) = [] :: [c] :: List.replicate n [] := by
  have happ : ∀ (a b : List (OptCall Cb)) (ls : List (Listener Cb Options)),
      (optRun ls (a ++ b)).2 = (optRun ls a).2 ++ (optRun (optRun ls a).1 b).2 := by
    intro a
    induction a with
    | nil => intros; rfl
    | cons x a ih => intro b ls; simp [optRun, ih]
  have hlen : ∀ (a : List (OptCall Cb)) (ls : List (Listener Cb Options)), (optRun ls a).2.length = a.length := by
    intro a
    induction a with
    | nil => intros; rfl
    | cons x a ih => intro ls; simp [optRun, ih]
  have hrep : ∀ n (ls : List (Listener Cb Options)), (optRun ls (List.replicate n .dispatch)).2 = List.replicate n (Event.dispatch ls) := by
    intro n
    induction n with
    | zero => intros; rfl
    | succ n ih => intro ls; simp [List.replicate_succ, optRun, OptCall.code, ih]
  constructor
  · rw [happ, List.drop_append, hlen, List.drop_eq_nil_of_le (by rw [hlen]; omega)]
    simp [optRun, OptCall.code, hrep, Event.dispatch, Event.add]
  · have hz : ∀ n, Spec.calls ([] : List (Cb × Options)) (List.replicate n .dispatch) = List.replicate n [] := by
      intro n
      induction n with
      | zero => rfl
      | succ n ih => simp [List.replicate_succ, Spec.calls, Spec.apply, ih]
    simp [List.replicate_succ, Spec.calls, Spec.apply, ho, hz]

example : (⟨false, true, false⟩ : Options).once = true := rfl

/-- C306 violated: a callback that is added again, with the same capture, is called again by each dispatch. As documented the second addition does nothing. -/
theorem C306_twice_violated (h : List (OptCall Cb)) (c : Cb) (o : Options) :
    (Event.dispatch (optRun init (h ++ [.add c o, .add c o])).1).count c = (Event.dispatch (optRun init h).1).count c + 2 ∧
    Spec.calls [] [.add c o, .add c o, .dispatch] = [[], [], [c]] := by
  have happ : ∀ (a b : List (OptCall Cb)) (ls : List (Listener Cb Options)), (optRun ls (a ++ b)).1 = (optRun (optRun ls a).1 b).1 := by
    intro a
    induction a with
    | nil => intros; rfl
    | cons x a ih => intro b ls; simp [optRun, ih]
  rw [happ]
  simp [optRun, OptCall.code, Event.add, Event.dispatch, Spec.calls, Spec.apply]

/-- C306 violated: a removal does not look at the options: of a callback registered with and without capture it takes out the one that was added first, also when
the other one was named. -/
theorem C306_remove_violated (c : Cb) (o o' : Options) (hc : o.capture ≠ o'.capture) :
    (optRun init [.add c o, .add c o', .remove c o']).1 = [⟨c, o'⟩] ∧
    (Spec.apply (Spec.apply (Spec.apply [] (.add c o)).1 (.add c o')).1 (.remove c o')).1 = [(c, o)] := by
  constructor
  · simp [optRun, OptCall.code, Event.add, init, Event.remove, removeLoop, goCopy]
  · simp [Spec.apply, hc]

example : (⟨true, false, false⟩ : Options).capture ≠ (⟨false, false, false⟩ : Options).capture := by decide

/-- **C306** Which callbacks a target calls does not depend on any options: two histories that differ only in options make the same calls. -/
theorem C306_ignored (h h' : List (OptCall Cb)) (hb : h.map Spec.bare = h'.map Spec.bare) : (optRun init h').2 = (optRun init h).2 := by
  have he : ∀ (q : List (Listener Cb Options)) c, Event.dispatch (Event.remove q c) = (Event.dispatch q).erase c := by
    intro q c
    rcases C40_remove_earliest q c with ⟨h1, h2⟩ | ⟨pre, o', post, h1, h2, h3⟩
    · rw [h2, List.erase_of_not_mem h1]
    · rw [h3, h1]
      simp only [Event.dispatch, List.map_append, List.map_cons] at h2 ⊢
      rw [List.erase_append_right _ h2, List.erase_cons_head]
  have key : ∀ (h h' : List (OptCall Cb)) (ls ls' : List (Listener Cb Options)), h.map Spec.bare = h'.map Spec.bare → Event.dispatch ls' = Event.dispatch ls →
      (optRun ls' h').2 = (optRun ls h).2 := by
    intro h
    induction h with
    | nil =>
      intro h' ls ls' hb _
      cases h' with
      | nil => rfl
      | cons => simp at hb
    | cons x h ih =>
      intro h' ls ls' hb hd
      cases h' with
      | nil => simp at hb
      | cons x' h' =>
        simp only [List.map_cons, List.cons.injEq] at hb
        have hstep : Event.dispatch (x'.code ls').1 = Event.dispatch (x.code ls).1 ∧ (x'.code ls').2 = (x.code ls).2 := by
          obtain ⟨hx, _⟩ := hb
          cases x <;> cases x' <;> simp [Spec.bare] at hx
          · subst hx
            simp only [OptCall.code, Event.add]
            simp only [Event.dispatch] at hd
            simp [Event.dispatch, hd]
          · subst hx
            simp [OptCall.code, he, hd]
          · simp [OptCall.code, hd]
        rw [optRun, optRun, hstep.2, ih h' _ _ hb.2 hstep.1]
  exact key h h' init init hb rfl

example : ([.add 1 ⟨true, true, false⟩, .dispatch, .remove 1 ⟨true, false, false⟩] : List (OptCall Nat)).map Spec.bare =
    ([.add 1 ⟨false, false, false⟩, .dispatch, .remove 1 ⟨false, true, true⟩] : List (OptCall Nat)).map Spec.bare := by decide

/-- **C306** An event has the domain and the time it was made with, however often `PreventDefault` was called; it says that it cannot be cancelled and, as
documented for such an event, never that it was. -/
theorem C306_event (e : Occurrence D T) (d : D) (t : T) (n : Nat) (e' : Occurrence D T)
    (he : e' = (List.replicate n ()).foldl (fun x _ => x.preventDefault) (e.init d t)) :
    e'.domain = d ∧ e'.when = t ∧ e'.cancelable = false ∧ e'.defaultPrevented = false := by
  have : e' = e.init d t := by
    rw [he]
    clear he
    induction n with
    | zero => rfl
    | succ n ih => rw [List.replicate_succ, List.foldl_cons]; exact ih
  rw [this]
  exact ⟨rfl, rfl, rfl, rfl⟩

end Memar.Event
