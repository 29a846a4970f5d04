import Verif.Command.Flags
import Verif.Command.Props

namespace Memar.Command
open Memar

/-! ## Lemmas -/

theorem visitList_spec {σ : Type} (fn : σ → Field → σ × Bool) (l : List Field) (st : σ) :
    (∃ pre f post, l = pre ++ f :: post ∧
      (∀ p g q, pre = p ++ g :: q → (fn (p.foldl (fun s f => (fn s f).1) st) g).2 = false) ∧
      (fn (pre.foldl (fun s f => (fn s f).1) st) f).2 = true ∧
      visitList fn st l = (pre ++ [f]).foldl (fun s f => (fn s f).1) st) ∨
    ((∀ p g q, l = p ++ g :: q → (fn (p.foldl (fun s f => (fn s f).1) st) g).2 = false) ∧
      visitList fn st l = l.foldl (fun s f => (fn s f).1) st) := by
  induction l generalizing st with
  | nil => right; exact ⟨fun p g q h => by simp at h, rfl⟩
  | cons f r ih =>
    by_cases h : (fn st f).2 = true
    · left
      refine ⟨[], f, r, rfl, fun p g q hh => by simp at hh, h, ?_⟩
      rw [visitList, if_pos h]; rfl
    · have h' : (fn st f).2 = false := by simpa using h
      have hstep : ∀ p g q (l : List Field), f :: l = p ++ g :: q →
          (∀ p' g' q', l = p' ++ g' :: q' → (fn (p'.foldl (fun s f => (fn s f).1) (fn st f).1) g').2 = false) →
          (fn (p.foldl (fun s f => (fn s f).1) st) g).2 = false := by
        intro p g q l e hh
        cases p with
        | nil => simp only [List.nil_append, List.cons.injEq] at e; rw [← e.1]; exact h'
        | cons x p =>
          simp only [List.cons_append, List.cons.injEq] at e
          rw [List.foldl_cons, ← e.1]
          exact hh p g q e.2
      rw [visitList, if_neg h]
      rcases ih (fn st f).1 with ⟨pre, g, post, e, h1, h2, h3⟩ | ⟨h1, h2⟩
      · left
        refine ⟨f :: pre, g, post, by rw [e]; rfl, fun p g' q e' => hstep p g' q pre e' h1, h2, h3⟩
      · right
        exact ⟨fun p g q e => hstep p g q r e h1, h2⟩

theorem relPathsLoop_eq (rel : Bytes → Bytes → Option Bytes) (cwd : Bytes) (ps out : List Bytes) :
    relPathsLoop rel cwd out ps = out ++ ps.map (shortPath rel cwd) := by
  induction ps generalizing out with
  | nil => simp [relPathsLoop]
  | cons p ps ih =>
    rw [relPathsLoop]
    cases h : rel cwd p with
    | none => simp only; rw [ih]; simp [shortPath, h]
    | some r =>
      simp only
      by_cases hl : r.length < p.length
      · rw [if_pos hl, ih]; simp [shortPath, h, hl]
      · rw [if_neg hl, ih]; simp [shortPath, h, hl]

/-! ## C146 -/

/-- The state of a caller after the first flags `pre` of the visited ones, none of which broke off. -/
def ranOver {σ : Type} (fn : σ → Field → σ × Bool) (st : σ) (pre : List Field) : σ :=
  pre.foldl (fun s f => (fn s f).1) st

/-- C146: `VisitAll` calls the function for every declared flag in the order of declaration, and `Visit` for every
flag a value was given to in the order of the command line, up to and including the first call that answers to break
off. -/
theorem C146_visits {σ : Type} (fn : σ → Field → σ × Bool) (st : σ) (s : FlagSet) :
    (∀ pre f post, s.fields = pre ++ f :: post →
      (∀ p g q, pre = p ++ g :: q → (fn (ranOver fn st p) g).2 = false) →
      (fn (ranOver fn st pre) f).2 = true → visitAll fn st s = (fn (ranOver fn st pre) f).1) ∧
    ((∀ p g q, s.fields = p ++ g :: q → (fn (ranOver fn st p) g).2 = false) →
      visitAll fn st s = ranOver fn st s.fields) ∧
    (∀ pre f post, s.sets.map (·.1) = pre ++ f :: post →
      (∀ p g q, pre = p ++ g :: q → (fn (ranOver fn st p) g).2 = false) →
      (fn (ranOver fn st pre) f).2 = true → visit fn st s = (fn (ranOver fn st pre) f).1) ∧
    ((∀ p g q, s.sets.map (·.1) = p ++ g :: q → (fn (ranOver fn st p) g).2 = false) →
      visit fn st s = ranOver fn st (s.sets.map (·.1))) := by
  have key : ∀ (l pre : List Field) (f : Field) (post : List Field) (st : σ), l = pre ++ f :: post →
      (∀ p g q, pre = p ++ g :: q → (fn (ranOver fn st p) g).2 = false) →
      (fn (ranOver fn st pre) f).2 = true → visitList fn st l = (fn (ranOver fn st pre) f).1 := by
    intro l pre
    induction pre generalizing l with
    | nil =>
      intro f post st e _ h
      subst e
      rw [List.nil_append, visitList, if_pos (show (fn st f).2 = true from h)]; rfl
    | cons x pre ih =>
      intro f post st e h1 h2
      subst e
      have hx : (fn st x).2 = false := h1 [] x pre rfl
      rw [List.cons_append, visitList, if_neg (by rw [hx]; decide)]
      exact ih _ f post (fn st x).1 rfl (fun p g q e => h1 (x :: p) g q (by rw [e]; rfl)) h2
  have key2 : ∀ (l : List Field) (st : σ), (∀ p g q, l = p ++ g :: q → (fn (ranOver fn st p) g).2 = false) →
      visitList fn st l = ranOver fn st l := by
    intro l st h
    rcases visitList_spec fn l st with ⟨pre, f, post, e, -, h2, -⟩ | ⟨-, h2⟩
    · have := h pre f post e
      rw [ranOver, h2] at this; exact absurd this (by decide)
    · exact h2
  exact ⟨fun pre f post e h1 h2 => key _ pre f post st e h1 h2, key2 _ st,
    fun pre f post e h1 h2 => key _ pre f post st e h1 h2, key2 _ st⟩

/-- Three flags; the caller writes the names down and breaks off at `b`. -/
example : visitAll (fun (st : List Bytes) f => (st ++ [f.name], f.name == bs "b")) []
    ⟨[⟨bs "a", [], false⟩, ⟨bs "b", [], false⟩, ⟨bs "c", [], true⟩], [], []⟩ = [bs "a", bs "b"] :=
  (C146_visits _ _ _).1 [⟨bs "a", [], false⟩] ⟨bs "b", [], false⟩ [⟨bs "c", [], true⟩] rfl
    (by
      intro p g q e
      cases p with
      | nil => simp only [List.nil_append, List.cons.injEq] at e; rw [← e.1]; decide
      | cons x p => simp at e)
    (by decide)

/-- C146: after the arguments of the flags were read, `Visit` shows exactly the flags the arguments gave a value to,
in their order, once for each time. -/
theorem C146_visit_read (accepts : Field → Bytes → Bool) (fields : List Field) (forms : List Form)
    (hc : checkFields fields = true) (hv : ∀ fm ∈ forms, fm.Valid fields accepts) :
    ∃ s, fromCLA accepts fields (forms.flatMap Form.render) = some (s, none) ∧
      visit (fun (st : List Field) f => (st ++ [f], false)) [] s = forms.map fun fm => (Form.assigns fm).1 := by
  have h := (C44_assigns_in_order accepts ⟨fields, [], forms.flatMap Form.render⟩ forms [] hv (by simp)).2 rfl
  refine ⟨⟨fields, forms.map Form.assigns, []⟩, ?_, ?_⟩
  · rw [fromCLA, init, if_pos hc, Option.map_some, h]; rfl
  · rw [(C146_visits (fun (st : List Field) f => (st ++ [f], false)) [] _).2.2.2 (fun _ _ _ _ => rfl)]
    have : ∀ (l acc : List Field), ranOver (fun (st : List Field) f => (st ++ [f], false)) acc l = acc ++ l := by
      intro l
      induction l with
      | nil => intro acc; simp [ranOver]
      | cons x l ih => intro acc; exact (ih (acc ++ [x])).trans (by simp)
    rw [this]
    simp

/-- A flag given twice and a switch. -/
example : ∃ s, fromCLA (fun _ _ => true) [exField, exBool] [bs "-p", bs "80", bs "--verbose", bs "--port=90"] = some (s, none) ∧
    visit (fun (st : List Field) f => (st ++ [f], false)) [] s = [exField, exBool, exField] := by
  have hp : lookup [exField, exBool] (bs "p") = some exField := by decide
  have hv : lookup [exField, exBool] (bs "verbose") = some exBool := by decide
  have hq : lookup [exField, exBool] (bs "port") = some exField := by decide
  exact C146_visit_read (fun _ _ => true) [exField, exBool]
    [.spaced false false (bs "p") exField (bs "80"), .bare true false (bs "verbose") exBool,
      .withValue true (bs "port") exField (bs "90")] (by decide) (by
    intro fm hfm
    simp only [List.mem_cons, List.not_mem_nil, or_false] at hfm
    rcases hfm with rfl | rfl | rfl
    · exact ⟨by decide, hp, rfl, rfl⟩
    · exact ⟨by decide, hv, rfl, rfl⟩
    · exact ⟨by decide, hq, rfl, by decide⟩)

/-- C146: `Arg` gives the arguments that are left by their position, and the empty text for every other position;
after a success no argument is left. -/
theorem C146_args (accepts : Field → Bytes → Bool) (s : FlagSet) (i : Int) :
    (∀ k : Nat, i = k → ∀ a, (args s)[k]? = some a → arg s i = a) ∧
    ((i < 0 ∨ (nArg s : Int) ≤ i) → arg s i = []) ∧ nArg s = (args s).length ∧
    ((parse accepts s).2 = none → args (parse accepts s).1 = []) := by
  refine ⟨fun k hk a ha => ?_, fun h => ?_, rfl, fun h => ?_⟩
  · have hl : k < s.args.length := by
      obtain ⟨hl, -⟩ := List.getElem?_eq_some_iff.mp ha; exact hl
    rw [arg, if_neg (by omega), hk]
    rw [show ((k : Int)).toNat = k from rfl, List.getD_eq_getElem?_getD]
    exact congrArg (fun o => Option.getD o []) ha
  · rw [arg, if_pos]; exact h
  · obtain ⟨forms, rest, -, -, -, h4, h5⟩ := C44_sound accepts s
    have hr := h4.mp h
    rw [args]
    cases ha : (parse accepts s).1.args with
    | nil => rfl
    | cons x l => have := h5 x (by rw [ha]; exact List.mem_cons_self); rw [hr] at this; simp at this

example : arg ⟨[], [], [bs "x", bs "y"]⟩ 1 = bs "y" ∧ arg ⟨[], [], [bs "x", bs "y"]⟩ 2 = [] ∧
    arg ⟨[], [], [bs "x", bs "y"]⟩ (-1) = [] :=
  ⟨(C146_args (fun _ _ => true) _ _).1 1 rfl _ rfl, (C146_args (fun _ _ => true) _ _).2.1 (by decide),
    (C146_args (fun _ _ => true) _ _).2.1 (by decide)⟩

/-- C235 violated: `NFlag` must answer the number of flags that have been set. It answers the number of declared flags,
whatever was set. -/
theorem C235_nflag_violated (accepts : Field → Bytes → Bool) (fields : List Field) (arguments : List Bytes)
    (s : FlagSet) (e : Option Err) (h : fromCLA accepts fields arguments = some (s, e)) : nFlag s = fields.length := by
  have hp : ∀ n (s : FlagSet), s.args.length = n → (parse accepts s).1.fields = s.fields := by
    have hset : ∀ (s : FlagSet) n v, (checkAndSet accepts s n v).1.fields = s.fields := by
      intro s n v
      unfold checkAndSet
      split
      · exact (set_args accepts s n v).2
      · split
        · rfl
        · split
          · exact (set_args accepts s n _).2
          · split
            · exact (set_args accepts _ n _).2
            · rfl
    have hflag : ∀ (s : FlagSet) rest n, (parseFlag accepts s rest n).1.fields = s.fields := by
      intro s rest n
      unfold parseFlag
      split
      · rfl
      · split
        · rfl
        · exact hset _ _ _
    have hone : ∀ s : FlagSet, (parseOne accepts s).1.fields = s.fields := by
      intro s
      unfold parseOne
      split
      · rfl
      · split
        · split
          · rfl
          · split
            · split
              · rfl
              · exact hflag _ _ _
            · exact hflag _ _ _
        · rfl
    intro n
    induction n using Nat.strongRecOn with
    | ind n ih =>
      intro s hs
      rw [parse]
      split
      · rfl
      · next hne =>
        split
        · next hn =>
          rw [ih _ (by rw [← hs]; exact parseOne_args accepts s hne hn) _ rfl, hone]
        · exact hone s
  rw [fromCLA, init] at h
  split at h
  · simp only [Option.map_some, Option.some.injEq] at h
    have := hp _ ⟨fields, [], arguments⟩ rfl
    rw [h] at this
    rw [nFlag, this]
  · simp at h

/-- Two flags declared, none set: the answer is two. -/
example : ∃ s, fromCLA (fun _ _ => true) [⟨bs "a", [], false⟩, ⟨bs "b", [], true⟩] [] = some (s, none) ∧
    s.sets = [] ∧ nFlag s = 2 := by
  have h : fromCLA (fun _ _ => true) [⟨bs "a", [], false⟩, ⟨bs "b", [], true⟩] [] =
      some (⟨[⟨bs "a", [], false⟩, ⟨bs "b", [], true⟩], [], []⟩, none) := by
    rw [fromCLA, init, if_pos (by decide), Option.map_some, parse]; rfl
  exact ⟨_, h, rfl, C235_nflag_violated _ _ _ _ _ h⟩

/-- C146: a set that was used and prepared again behaves as a new one; without the preparation the flags set before
stay among the set ones. -/
theorem C146_again (s : FlagSet) (fields : List Field) (arguments : List Bytes) :
    initAgain (reinit s) fields arguments = init fields arguments ∧
    (init fields arguments ≠ none →
      ∃ t, initAgain s fields arguments = some t ∧ t.fields = fields ∧ t.args = arguments ∧ t.sets = s.sets) := by
  refine ⟨rfl, fun h => ?_⟩
  rw [init] at h
  rw [initAgain]
  split at h
  · next hc => rw [if_pos hc]; exact ⟨_, rfl, rfl, rfl, rfl⟩
  · exact absurd rfl h

example : ∃ t, initAgain ⟨[], [(⟨bs "x", [], false⟩, bs "1")], []⟩ [⟨bs "a", [], false⟩] [bs "-a=2"] = some t ∧
    t.sets = [(⟨bs "x", [], false⟩, bs "1")] := by
  obtain ⟨t, h, -, -, h2⟩ := (C146_again ⟨[], [(⟨bs "x", [], false⟩, bs "1")], []⟩ [⟨bs "a", [], false⟩] [bs "-a=2"]).2 (by decide)
  exact ⟨t, h, h2⟩

/-- C235 violated: `Root` must answer the command at the top. It never answers: it asks the command it has not found
yet for its parent, and panics for every command. -/
theorem C235_root_violated (c : Up) : root c = none := by rw [root, rootLoop]

example : root (.mk (bs "build") (some (.mk (bs "memar") none))) = none := C235_root_violated _

/-- C146: a short path is the path itself or the path from the working directory to it, whichever is shorter, the path
itself if they are of the same length or there is none; a list of paths is made short path by path. -/
theorem C146_short_path (rel : Bytes → Bytes → Option Bytes) (cwd p : Bytes) (paths : List Bytes) :
    (shortPath rel cwd p = p ∨ rel cwd p = some (shortPath rel cwd p)) ∧
    (shortPath rel cwd p).length ≤ p.length ∧
    (∀ r, rel cwd p = some r → (shortPath rel cwd p).length ≤ r.length ∧
      (r.length = p.length → shortPath rel cwd p = p)) ∧
    relPaths rel cwd paths = paths.map (shortPath rel cwd) := by
  refine ⟨?_, ?_, ?_, by rw [relPaths, relPathsLoop_eq]; rfl⟩
  · unfold shortPath
    cases h : rel cwd p with
    | none => exact Or.inl rfl
    | some r =>
      simp only
      split
      · exact Or.inr rfl
      · exact Or.inl rfl
  · unfold shortPath
    split
    · split <;> omega
    · exact Nat.le_refl _
  · intro r h
    unfold shortPath
    rw [h]
    simp only
    split
    · next hl => exact ⟨Nat.le_refl _, fun e => by omega⟩
    · next hl => exact ⟨by omega, fun _ => rfl⟩

example : ∃ rel : Bytes → Bytes → Option Bytes,
    relPaths rel (bs "/w") [bs "/w/a", bs "/x"] = [bs "a", bs "/x"] ∧ rel (bs "/w") (bs "/x") = some (bs "../x") :=
  ⟨fun _ p => if p = bs "/w/a" then some (bs "a") else some (bs "../x"), by decide, by decide⟩

/-- C146: a file is a test exactly when its name ends in `_test.go`. -/
theorem C146_test_file (file : Bytes) : isTestFile file = true ↔ ∃ a, file = a ++ bs "_test.go" := by
  rw [isTestFile, List.isSuffixOf_iff_suffix]
  exact ⟨fun ⟨a, h⟩ => ⟨a, h.symm⟩, fun ⟨a, h⟩ => ⟨a, h.symm⟩⟩

example : isTestFile (bs "x_test.go") = true := (C146_test_file _).mpr ⟨bs "x", by decide⟩

end Memar.Command
