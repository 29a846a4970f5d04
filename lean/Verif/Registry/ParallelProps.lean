import Verif.Registry.Parallel

/-!
# Properties of the registries used by several goroutines, C290
-/

namespace Memar.Registry.Parallel
open Memar

variable {σ ρ : Type}

/-! ## Helpers -/

theorem setThread_same (ts : Nat → Thread σ ρ) (i : Nat) (t : Thread σ ρ) : setThread ts i t i = t := if_pos rfl

theorem setThread_set (ts : Nat → Thread σ ρ) (i : Nat) (t u : Thread σ ρ) : setThread (setThread ts i t) i u = setThread ts i u := by
  funext j; unfold setThread; by_cases h : j = i <;> simp [h]

theorem setMark_set (w : Nat → Bool) (m : Nat) (a b : Bool) : setMark (setMark w m a) m b = setMark w m b := by
  funext j; unfold setMark; by_cases h : j = m <;> simp [h]

theorem setMark_clear (m : Nat) : setMark (fun _ => false) m false = fun _ => false := by
  funext j; unfold setMark; simp

/-- A call made alone, from its beginning to its end. -/
theorem solo (c : Code σ ρ) : ∀ (s : Sys σ ρ) (i : Nat) (cs : List (Code σ ρ)) (a : List ρ), s.fatal = false → s.writing = (fun _ => false) →
    s.threads i = ⟨c :: cs, false, a⟩ →
    s.run (List.replicate (c.steps s.shared) i) =
      ⟨(c.alone s.shared).1, fun _ => false, false, setThread s.threads i ⟨cs, false, a ++ [(c.alone s.shared).2]⟩⟩ := by
  induction c with
  | ret r =>
    intro s i cs a hf hw ht
    obtain ⟨sh, w, fa, ts⟩ := s
    dsimp only at hf hw ht
    subst hf hw
    simp only [Code.steps, Sys.run, List.replicate, List.foldl, Sys.go, ht, Code.alone]
    rfl
  | read m k ih =>
    intro s i cs a hf hw ht
    have e : s.go i = { s with threads := setThread s.threads i ⟨k s.shared :: cs, false, a⟩ } := by
      unfold Sys.go
      rw [hf, ht, hw]
      rfl
    show (s.go i).run (List.replicate ((k s.shared).steps s.shared) i) = _
    rw [e]
    have := ih s.shared { s with threads := setThread s.threads i ⟨k s.shared :: cs, false, a⟩ } i cs a hf hw (setThread_same ..)
    dsimp only at this
    rw [this, setThread_set]
    rfl
  | load k ih =>
    intro s i cs a hf hw ht
    have e : s.go i = { s with threads := setThread s.threads i ⟨k s.shared :: cs, false, a⟩ } := by
      unfold Sys.go
      rw [hf, ht]
      rfl
    show (s.go i).run (List.replicate ((k s.shared).steps s.shared) i) = _
    rw [e]
    have := ih s.shared { s with threads := setThread s.threads i ⟨k s.shared :: cs, false, a⟩ } i cs a hf hw (setThread_same ..)
    dsimp only at this
    rw [this, setThread_set]
    rfl
  | write m f k ih =>
    intro s i cs a hf hw ht
    have e1 : s.go i = { s with writing := setMark s.writing m true, threads := setThread s.threads i ⟨.write m f k :: cs, true, a⟩ } := by
      unfold Sys.go
      rw [hf, ht, hw]
      rfl
    have e2 : (s.go i).go i = ⟨f s.shared, fun _ => false, false, setThread s.threads i ⟨k :: cs, false, a⟩⟩ := by
      rw [e1]
      have hm : setMark (fun _ => false) m true m = true := by simp [setMark]
      simp [Sys.go, hf, hw, setThread_same, hm, setMark_set, setMark_clear, setThread_set]
    show ((s.go i).go i).run (List.replicate (k.steps (f s.shared)) i) = _
    rw [e2]
    have := ih ⟨f s.shared, fun _ => false, false, setThread s.threads i ⟨k :: cs, false, a⟩⟩ i cs a rfl rfl (setThread_same ..)
    dsimp only at this
    rw [this, setThread_set]
    rfl
  | store f k ih =>
    intro s i cs a hf hw ht
    have e : s.go i = { s with shared := f s.shared, threads := setThread s.threads i ⟨k :: cs, false, a⟩ } := by
      unfold Sys.go
      rw [hf, ht]
      rfl
    show (s.go i).run (List.replicate (k.steps (f s.shared)) i) = _
    rw [e]
    have := ih { s with shared := f s.shared, threads := setThread s.threads i ⟨k :: cs, false, a⟩ } i cs a hf hw (setThread_same ..)
    dsimp only at this
    rw [this, setThread_set]
    rfl

/-- Turns: the data and the answers are those of the calls in the order of the turns. -/
theorem turns {β : Type} (code : β → Code σ ρ) : ∀ (order : List Nat) (progs : Nat → List β) (s : σ) (ans : Nat → List ρ),
    ∃ y, y = order.foldl Sys.turn ⟨s, fun _ => false, false, fun i => ⟨(progs i).map code, false, ans i⟩⟩ ∧ y.fatal = false ∧
      y.shared = (Spec.oneByOne (fun s c => (code c).alone s) s (Spec.merge progs order)).1 ∧
      ∀ i, (y.threads i).answers = ans i ++ Spec.answersOf (Spec.oneByOne (fun s c => (code c).alone s) s (Spec.merge progs order)).2 i
  | [], progs, s, ans => ⟨_, rfl, rfl, rfl, fun i => (List.append_nil _).symm⟩
  | i :: order, progs, s, ans => by
    rw [List.foldl_cons, Spec.merge]
    cases h : progs i with
    | nil =>
      have : Sys.turn ⟨s, fun _ => false, false, fun i => ⟨(progs i).map code, false, ans i⟩⟩ i =
          ⟨s, fun _ => false, false, fun i => ⟨(progs i).map code, false, ans i⟩⟩ := by
        unfold Sys.turn; simp only [h, List.map_nil]
      rw [this]
      exact turns code order progs s ans
    | cons c rest =>
      have ht : (⟨s, fun _ => false, false, fun i => ⟨(progs i).map code, false, ans i⟩⟩ : Sys σ ρ).threads i = ⟨code c :: rest.map code, false, ans i⟩ := by
        simp only [h, List.map_cons]
      have : Sys.turn ⟨s, fun _ => false, false, fun i => ⟨(progs i).map code, false, ans i⟩⟩ i =
          ⟨((code c).alone s).1, fun _ => false, false,
            fun j => ⟨((fun j => if j = i then rest else progs j) j).map code, false, if j = i then ans i ++ [((code c).alone s).2] else ans j⟩⟩ := by
        unfold Sys.turn
        rw [ht]
        dsimp only
        rw [solo (code c) _ i _ _ rfl rfl ht]
        dsimp only
        congr 1
        funext j
        unfold setThread
        by_cases hj : j = i
        · simp [hj]
        · simp [hj]
      rw [this]
      obtain ⟨y, h1, h2, h3, h4⟩ := turns code order (fun j => if j = i then rest else progs j) ((code c).alone s).1
        (fun j => if j = i then ans i ++ [((code c).alone s).2] else ans j)
      refine ⟨y, h1, h2, h3, fun j => ?_⟩
      rw [h4 j]
      dsimp only [Spec.oneByOne]
      by_cases hj : j = i
      · subst hj; simp [Spec.answersOf]
      · simp [Spec.answersOf, hj, Ne.symm hj]

/-- A call that only reads. -/
def Code.ReadOnly : Code σ ρ → Prop
  | .ret _ => True
  | .read _ k => ∀ s, (k s).ReadOnly
  | .write _ _ _ => False
  | .load k => ∀ s, (k s).ReadOnly
  | .store _ _ => False

theorem readers (s : σ) (progs : Nat → List (Code σ ρ)) (h : ∀ i, ∀ c ∈ progs i, c.ReadOnly) (sched : List Nat) :
    ((start s progs).run sched).fatal = false ∧ ((start s progs).run sched).shared = s ∧
    ∀ i, (((start s progs).run sched).threads i).answers ++ (((start s progs).run sched).threads i).todo.map (fun c => (c.alone s).2) =
      (progs i).map (fun c => (c.alone s).2) := by
  have key : ∀ (sched : List Nat) (y : Sys σ ρ), y.fatal = false → y.writing = (fun _ => false) → y.shared = s →
      (∀ i, (∀ c ∈ (y.threads i).todo, c.ReadOnly) ∧ (y.threads i).answers ++ (y.threads i).todo.map (fun c => (c.alone s).2) =
        (progs i).map (fun c => (c.alone s).2)) →
      (y.run sched).fatal = false ∧ (y.run sched).shared = s ∧
      ∀ i, ((y.run sched).threads i).answers ++ ((y.run sched).threads i).todo.map (fun c => (c.alone s).2) = (progs i).map (fun c => (c.alone s).2) := by
    intro sched
    induction sched with
    | nil => intro y hf _ hs hi; exact ⟨hf, hs, fun i => (hi i).2⟩
    | cons i sched ih =>
      intro y hf hw hs hi
      show ((y.go i).run sched).fatal = false ∧ ((y.go i).run sched).shared = s ∧ ∀ j, (((y.go i).run sched).threads j).answers ++
        (((y.go i).run sched).threads j).todo.map (fun c => (c.alone s).2) = _
      have upd : ∀ (t : Thread σ ρ), ((∀ c ∈ t.todo, c.ReadOnly) ∧ t.answers ++ t.todo.map (fun c => (c.alone s).2) = (progs i).map (fun c => (c.alone s).2)) →
          ∀ j, (∀ c ∈ (setThread y.threads i t j).todo, c.ReadOnly) ∧ (setThread y.threads i t j).answers ++
            (setThread y.threads i t j).todo.map (fun c => (c.alone s).2) = (progs j).map (fun c => (c.alone s).2) := by
        intro t ht j
        unfold setThread
        by_cases hj : j = i
        · subst hj; simpa using ht
        · simp only [if_neg hj]; exact hi j
      obtain ⟨h1, h2⟩ := hi i
      cases ht : (y.threads i).todo with
      | nil =>
        have : y.go i = y := by unfold Sys.go; rw [hf, ht]; rfl
        rw [this]; exact ih y hf hw hs hi
      | cons c cs =>
        rw [ht] at h1 h2
        have h1' : ∀ x ∈ cs, x.ReadOnly := fun x hx => h1 x (List.mem_cons_of_mem _ hx)
        have hc := h1 c (List.mem_cons_self ..)
        cases c with
        | ret r =>
          have : y.go i = { y with threads := setThread y.threads i ⟨cs, false, (y.threads i).answers ++ [r]⟩ } := by
            unfold Sys.go; rw [hf, ht]; rfl
          rw [this]
          refine ih _ hf hw hs (upd _ ⟨h1', ?_⟩)
          rw [← h2]; simp [Code.alone]
        | read m k =>
          have : y.go i = { y with threads := setThread y.threads i ⟨k y.shared :: cs, false, (y.threads i).answers⟩ } := by
            unfold Sys.go; rw [hf, ht, hw]; rfl
          rw [this]
          refine ih _ hf hw hs (upd _ ⟨?_, ?_⟩)
          · intro x hx
            rcases List.mem_cons.mp hx with rfl | hx
            · exact hc _
            · exact h1' x hx
          · rw [← h2, hs]; simp [Code.alone]
        | load k =>
          have : y.go i = { y with threads := setThread y.threads i ⟨k y.shared :: cs, false, (y.threads i).answers⟩ } := by
            unfold Sys.go; rw [hf, ht]; rfl
          rw [this]
          refine ih _ hf hw hs (upd _ ⟨?_, ?_⟩)
          · intro x hx
            rcases List.mem_cons.mp hx with rfl | hx
            · exact hc _
            · exact h1' x hx
          · rw [← h2, hs]; simp [Code.alone]
        | write m f k => exact hc.elim
        | store f k => exact hc.elim
  refine key sched (start s progs) rfl rfl rfl (fun i => ⟨h i, ?_⟩)
  simp [start]

theorem ecode_alone {α : Type} (K : Keys α) (dev : Bool) (s : Errors.State α) (c : ECall α) : (c.code K dev).alone s = c.atOnce K dev s := by
  cases c with
  | register x =>
    cases dev with
    | false => simp [ECall.code, ECall.atOnce, Code.alone, Errors.register]
    | true =>
      by_cases h : K.id x = 0#64
      · simp [ECall.code, ECall.atOnce, Code.alone, Errors.register, h]
      · by_cases h2 : (s.byID (K.id x)).isSome = true
        · simp [ECall.code, ECall.atOnce, Code.alone, Errors.register, h, h2]
        · simp [ECall.code, ECall.atOnce, Code.alone, Errors.register, h, h2]
  | unRegister x => rfl
  | getByID id =>
    by_cases h : id = 0#64
    · simp [ECall.code, ECall.atOnce, Code.alone, Errors.getByID, h]
    · simp [ECall.code, ECall.atOnce, Code.alone, h]
  | getByMediaType mt => rfl

theorem scode_alone {α : Type} (K : Keys α) (s : Services.State α) (c : SCall α) : (c.code K).alone s = c.atOnce K s := by
  cases c with
  | register x =>
    unfold SCall.code SCall.atOnce Services.register Services.registerServiceByMediaType Services.getByID Services.getByMediaType
    by_cases h : K.id x = 0#64
    · simp [Code.alone, h]
    · simp only [if_neg h, Code.alone]
      cases h1 : s.byID (K.id x) with
      | some y =>
        simp only [Code.alone]
        cases h2 : s.byMediaType (K.text x) with
        | some z => simp only [Code.alone]
        | none => simp only [Code.alone]
      | none =>
        simp only [Code.alone]
        cases h2 : s.byMediaType (K.text x) with
        | some z => simp only [Code.alone]
        | none => simp only [Code.alone]
  | delete x => rfl
  | services => rfl
  | getByID id => rfl
  | getByMediaType mt => rfl

theorem ccode_alone {α : Type} (K : Types.TypeKeys α) (s : Types.CState α) (c : CCall α) : (c.code K).alone s = c.atOnce K s := by
  cases c with
  | register x =>
    simp only [CCall.code, CCall.atOnce, Types.cregister]
    by_cases h : K.mediaType x = []
    · simp [h, Code.alone]
    · by_cases h2 : K.contentEncoding x = []
      · simp [h, h2, Code.alone]
      · simp [h, h2, Code.alone]
  | getByID id => rfl
  | getByMediaType mt => rfl
  | getByFileExtension ex => rfl
  | getByContentEncoding ce => rfl
  | contentEncodings => rfl

theorem mcode_alone {α : Type} (K : Types.TypeKeys α) (s : Types.MState α) (c : MCall α) : (c.code K).alone s = c.atOnce K s := by
  cases c with
  | register x =>
    simp only [MCall.code, MCall.atOnce, Types.mregister]
    by_cases h : K.mainType x = [] ∧ K.subType x = []
    · simp only [if_pos h, Code.alone]
    · simp only [if_neg h, Code.alone]
      by_cases h2 : K.fileExtension x = []
      · simp [h2, Code.alone]
      · simp [h2, Code.alone]
  | getByMediaType mt => rfl
  | getByID id => rfl
  | getByFileExtension ex => rfl

/-! ## C290 -/

/-- **C290** Lookups by any number of goroutines, under every schedule, never end the program and change nothing; each goroutine is given, in order, what each of
its lookups gives by itself. -/
theorem C290_error_lookups {α : Type} (K : Keys α) (dev : Bool) (s : Errors.State α) (progs : Nat → List (ECall α)) (h : ∀ i, ∀ c ∈ progs i, c.lookup)
    (sched : List Nat) (y : Sys (Errors.State α) (EAnswer α)) (hy : y = (start s fun i => (progs i).map (ECall.code K dev)).run sched) :
    y.fatal = false ∧ y.shared = s ∧ ∀ i, ∃ n, (y.threads i).answers = ((progs i).map fun c => (c.atOnce K dev s).2).take n ∧
      ((y.threads i).todo = [] → (y.threads i).answers = (progs i).map fun c => (c.atOnce K dev s).2) := by
  have hro : ∀ i, ∀ c ∈ (progs i).map (ECall.code K dev), c.ReadOnly := by
    intro i c hc
    obtain ⟨e, he, rfl⟩ := List.mem_map.mp hc
    have := h i e he
    cases e with
    | register x => exact this.elim
    | unRegister x => exact this.elim
    | getByID id => simp only [ECall.code]; split <;> simp [Code.ReadOnly]
    | getByMediaType mt => simp [ECall.code, Code.ReadOnly]
  obtain ⟨h1, h2, h3⟩ := readers s _ hro sched
  rw [hy]
  refine ⟨h1, h2, fun i => ?_⟩
  have h4 := h3 i
  rw [List.map_map, show (fun c => (Code.alone c s).2) ∘ ECall.code K dev = fun c => (c.atOnce K dev s).2 from
    funext fun c => congrArg Prod.snd (ecode_alone K dev s c)] at h4
  refine ⟨(((start s fun i => (progs i).map (ECall.code K dev)).run sched).threads i).answers.length, ?_, ?_⟩
  · rw [← h4, List.take_left]
  · intro e; rw [e, List.map_nil, List.append_nil] at h4; exact h4

/-- **C290** The same for the registry of services, whose documentation asks for exactly this: register first, then look up from anywhere. -/
theorem C290_service_lookups {α : Type} (K : Keys α) (s : Services.State α) (progs : Nat → List (SCall α)) (h : ∀ i, ∀ c ∈ progs i, c.lookup)
    (sched : List Nat) (y : Sys (Services.State α) (SAnswer α)) (hy : y = (start s fun i => (progs i).map (SCall.code K)).run sched) :
    y.fatal = false ∧ y.shared = s ∧ ∀ i, ∃ n, (y.threads i).answers = ((progs i).map fun c => (c.atOnce K s).2).take n ∧
      ((y.threads i).todo = [] → (y.threads i).answers = (progs i).map fun c => (c.atOnce K s).2) := by
  have hro : ∀ i, ∀ c ∈ (progs i).map (SCall.code K), c.ReadOnly := by
    intro i c hc
    obtain ⟨e, he, rfl⟩ := List.mem_map.mp hc
    have := h i e he
    cases e with
    | register x => exact this.elim
    | delete x => exact this.elim
    | services => simp [SCall.code, Code.ReadOnly]
    | getByID id => simp [SCall.code, Code.ReadOnly]
    | getByMediaType mt => simp [SCall.code, Code.ReadOnly]
  obtain ⟨h1, h2, h3⟩ := readers s _ hro sched
  rw [hy]
  refine ⟨h1, h2, fun i => ?_⟩
  have h4 := h3 i
  rw [List.map_map, show (fun c => (Code.alone c s).2) ∘ SCall.code K = fun c => (c.atOnce K s).2 from
    funext fun c => congrArg Prod.snd (scode_alone K s c)] at h4
  refine ⟨(((start s fun i => (progs i).map (SCall.code K)).run sched).threads i).answers.length, ?_, ?_⟩
  · rw [← h4, List.take_left]
  · intro e; rw [e, List.map_nil, List.append_nil] at h4; exact h4

/-- **C290** The same for the registry of compress types. -/
theorem C290_compress_type_lookups {α : Type} (K : Types.TypeKeys α) (s : Types.CState α) (progs : Nat → List (CCall α)) (h : ∀ i, ∀ c ∈ progs i, c.lookup)
    (sched : List Nat) (y : Sys (Types.CState α) (TAnswer α)) (hy : y = (start s fun i => (progs i).map (CCall.code K)).run sched) :
    y.fatal = false ∧ y.shared = s ∧ ∀ i, ∃ n, (y.threads i).answers = ((progs i).map fun c => (c.atOnce K s).2).take n ∧
      ((y.threads i).todo = [] → (y.threads i).answers = (progs i).map fun c => (c.atOnce K s).2) := by
  have hro : ∀ i, ∀ c ∈ (progs i).map (CCall.code K), c.ReadOnly := by
    intro i c hc
    obtain ⟨e, he, rfl⟩ := List.mem_map.mp hc
    have := h i e he
    cases e with
    | register x => exact this.elim
    | _ => simp [CCall.code, Code.ReadOnly]
  obtain ⟨h1, h2, h3⟩ := readers s _ hro sched
  rw [hy]
  refine ⟨h1, h2, fun i => ?_⟩
  have h4 := h3 i
  rw [List.map_map, show (fun c => (Code.alone c s).2) ∘ CCall.code K = fun c => (c.atOnce K s).2 from
    funext fun c => congrArg Prod.snd (ccode_alone K s c)] at h4
  refine ⟨(((start s fun i => (progs i).map (CCall.code K)).run sched).threads i).answers.length, ?_, ?_⟩
  · rw [← h4, List.take_left]
  · intro e; rw [e, List.map_nil, List.append_nil] at h4; exact h4

/-- **C290** The same for the registry of media types. -/
theorem C290_media_type_lookups {α : Type} (K : Types.TypeKeys α) (s : Types.MState α) (progs : Nat → List (MCall α)) (h : ∀ i, ∀ c ∈ progs i, c.lookup)
    (sched : List Nat) (y : Sys (Types.MState α) (TAnswer α)) (hy : y = (start s fun i => (progs i).map (MCall.code K)).run sched) :
    y.fatal = false ∧ y.shared = s ∧ ∀ i, ∃ n, (y.threads i).answers = ((progs i).map fun c => (c.atOnce K s).2).take n ∧
      ((y.threads i).todo = [] → (y.threads i).answers = (progs i).map fun c => (c.atOnce K s).2) := by
  have hro : ∀ i, ∀ c ∈ (progs i).map (MCall.code K), c.ReadOnly := by
    intro i c hc
    obtain ⟨e, he, rfl⟩ := List.mem_map.mp hc
    have := h i e he
    cases e with
    | register x => exact this.elim
    | _ => simp [MCall.code, Code.ReadOnly]
  obtain ⟨h1, h2, h3⟩ := readers s _ hro sched
  rw [hy]
  refine ⟨h1, h2, fun i => ?_⟩
  have h4 := h3 i
  rw [List.map_map, show (fun c => (Code.alone c s).2) ∘ MCall.code K = fun c => (c.atOnce K s).2 from
    funext fun c => congrArg Prod.snd (mcode_alone K s c)] at h4
  refine ⟨(((start s fun i => (progs i).map (MCall.code K)).run sched).threads i).answers.length, ?_, ?_⟩
  · rw [← h4, List.take_left]
  · intro e; rw [e, List.map_nil, List.append_nil] at h4; exact h4

/-- Objects that are their own identifier, with a text of one byte. -/
def demoKeys : Keys (BitVec 64) := ⟨fun x => x, fun x => [x.setWidth 8]⟩

example : (∀ i, ∀ c ∈ (fun _ => [ECall.getByID 5#64, .getByMediaType [7#8]] : Nat → List (ECall (BitVec 64))) i, c.lookup) ∧
    (((start (Errors.register demoKeys true Errors.init 5#64).1 fun _ => [ECall.getByID 5#64, ECall.getByMediaType [7#8]].map (ECall.code demoKeys true)).run
      [0, 1, 1, 0, 0, 0]).threads 0).answers.length = 2 := by
  refine ⟨?_, by decide⟩
  intro i c hc
  simp only [List.mem_cons, List.not_mem_nil, or_false] at hc
  rcases hc with rfl | rfl <;> trivial

example : (∀ i, ∀ c ∈ (fun _ => [.services, .getByID 5#64, .getByMediaType [5#8]] : Nat → List (SCall (BitVec 64))) i, c.lookup) ∧
    (∀ i, ∀ c ∈ (fun _ => [.getByID 5#64, .contentEncodings] : Nat → List (CCall (BitVec 64))) i, c.lookup) ∧
    (∀ i, ∀ c ∈ (fun _ => [.getByID 5#64, .getByFileExtension [5#8]] : Nat → List (MCall (BitVec 64))) i, c.lookup) := by
  refine ⟨?_, ?_, ?_⟩ <;>
  · intro i c hc
    simp only [List.mem_cons, List.not_mem_nil, or_false] at hc
    first
      | (rcases hc with rfl | rfl | rfl <;> trivial)
      | (rcases hc with rfl | rfl <;> trivial)

/-- **C290** the part that holds: calls of several goroutines that do not overlap, in whatever order, change the registry and answer as the same calls
made one after the other, and never end the program: everything said of histories (C41) holds. Missing: calls that overlap, see `C290_crash_violated`. -/
theorem C290_error_turns_partial {α : Type} (K : Keys α) (dev : Bool) (s : Errors.State α) (progs : Nat → List (ECall α)) (order : List Nat)
    (y : Sys (Errors.State α) (EAnswer α)) (hy : y = order.foldl Sys.turn (start s fun i => (progs i).map (ECall.code K dev))) :
    y.fatal = false ∧ y.shared = (Spec.oneByOne (fun s c => c.atOnce K dev s) s (Spec.merge progs order)).1 ∧
    ∀ i, (y.threads i).answers = Spec.answersOf (Spec.oneByOne (fun s c => c.atOnce K dev s) s (Spec.merge progs order)).2 i := by
  obtain ⟨z, h1, h2, h3, h4⟩ := turns (ECall.code K dev) order progs s (fun _ => [])
  have hz : y = z := by rw [h1, hy]; rfl
  rw [show (fun s c => (ECall.code K dev c).alone s) = fun s c => c.atOnce K dev s from funext fun s => funext fun c => ecode_alone K dev s c] at h3 h4
  rw [hz]
  exact ⟨h2, h3, fun i => by rw [h4 i]; rfl⟩

/-- **C290** the part that holds: the same for services (C42). Missing: calls that overlap. -/
theorem C290_service_turns_partial {α : Type} (K : Keys α) (s : Services.State α) (progs : Nat → List (SCall α)) (order : List Nat)
    (y : Sys (Services.State α) (SAnswer α)) (hy : y = order.foldl Sys.turn (start s fun i => (progs i).map (SCall.code K))) :
    y.fatal = false ∧ y.shared = (Spec.oneByOne (fun s c => c.atOnce K s) s (Spec.merge progs order)).1 ∧
    ∀ i, (y.threads i).answers = Spec.answersOf (Spec.oneByOne (fun s c => c.atOnce K s) s (Spec.merge progs order)).2 i := by
  obtain ⟨z, h1, h2, h3, h4⟩ := turns (SCall.code K) order progs s (fun _ => [])
  have hz : y = z := by rw [h1, hy]; rfl
  rw [show (fun s c => (SCall.code K c).alone s) = fun s c => c.atOnce K s from funext fun s => funext fun c => scode_alone K s c] at h3 h4
  rw [hz]
  exact ⟨h2, h3, fun i => by rw [h4 i]; rfl⟩

/-- **C290** the part that holds: the same for compress types. Missing: calls that overlap, see `C290_encoding_lost_violated`. -/
theorem C290_compress_type_turns_partial {α : Type} (K : Types.TypeKeys α) (s : Types.CState α) (progs : Nat → List (CCall α)) (order : List Nat)
    (y : Sys (Types.CState α) (TAnswer α)) (hy : y = order.foldl Sys.turn (start s fun i => (progs i).map (CCall.code K))) :
    y.fatal = false ∧ y.shared = (Spec.oneByOne (fun s c => c.atOnce K s) s (Spec.merge progs order)).1 ∧
    ∀ i, (y.threads i).answers = Spec.answersOf (Spec.oneByOne (fun s c => c.atOnce K s) s (Spec.merge progs order)).2 i := by
  obtain ⟨z, h1, h2, h3, h4⟩ := turns (CCall.code K) order progs s (fun _ => [])
  have hz : y = z := by rw [h1, hy]; rfl
  rw [show (fun s c => (CCall.code K c).alone s) = fun s c => c.atOnce K s from funext fun s => funext fun c => ccode_alone K s c] at h3 h4
  rw [hz]
  exact ⟨h2, h3, fun i => by rw [h4 i]; rfl⟩

/-- **C290** the part that holds: the same for media types. Missing: calls that overlap, see `C290_type_crash_violated`. -/
theorem C290_media_type_turns_partial {α : Type} (K : Types.TypeKeys α) (s : Types.MState α) (progs : Nat → List (MCall α)) (order : List Nat)
    (y : Sys (Types.MState α) (TAnswer α)) (hy : y = order.foldl Sys.turn (start s fun i => (progs i).map (MCall.code K))) :
    y.fatal = false ∧ y.shared = (Spec.oneByOne (fun s c => c.atOnce K s) s (Spec.merge progs order)).1 ∧
    ∀ i, (y.threads i).answers = Spec.answersOf (Spec.oneByOne (fun s c => c.atOnce K s) s (Spec.merge progs order)).2 i := by
  obtain ⟨z, h1, h2, h3, h4⟩ := turns (MCall.code K) order progs s (fun _ => [])
  have hz : y = z := by rw [h1, hy]; rfl
  rw [show (fun s c => (MCall.code K c).alone s) = fun s c => c.atOnce K s from funext fun s => funext fun c => mcode_alone K s c] at h3 h4
  rw [hz]
  exact ⟨h2, h3, fun i => by rw [h4 i]; rfl⟩

/-- Two goroutines. -/
def two {β : Type} (a b : List β) : Nat → List β := fun i => if i = 0 then a else if i = 1 then b else []

example : (Spec.merge (two [ECall.register 5#64, .unRegister 5#64] [.register 6#64]) [0, 1, 0]).length = 3 ∧
    (([0, 1, 0].foldl Sys.turn (start Errors.init fun i => (two [ECall.register 5#64, .unRegister 5#64] [.register 6#64] i).map (ECall.code demoKeys true))).shared.byID 6#64) =
      some 6#64 := by decide

example : ([0, 1, 1].foldl Sys.turn (start Services.init fun i => (two [SCall.register 5#64] [SCall.getByID 5#64, .getByID 6#64] i).map (SCall.code demoKeys))).fatal = false ∧
    Spec.merge (two [SCall.register 5#64] [SCall.getByID 5#64, .getByID 6#64]) [0, 1, 1] = [(0, .register 5#64), (1, .getByID 5#64), (1, .getByID 6#64)] :=
  ⟨rfl, rfl⟩

/-- Types whose names are one byte of the identifier. -/
def demoTypes : Types.TypeKeys (BitVec 64) :=
  { id := fun x => x, text := fun x => [x.setWidth 8], fileExtension := fun _ => [], mainType := fun x => [x.setWidth 8], subType := fun _ => [],
    mediaType := fun x => [x.setWidth 8], contentEncoding := fun x => [x.setWidth 8] }

example : ([1, 0].foldl Sys.turn (start Types.cinit fun i => (two [CCall.register 5#64] [CCall.register 6#64] i).map (CCall.code demoTypes))).shared.contentEncodings =
    [[6#8], [5#8]] := by decide

example : ([1, 0].foldl Sys.turn (start Types.minit fun i => (two [MCall.register 5#64] [MCall.register 6#64] i).map (MCall.code demoTypes))).shared.byID 6#64 =
    some 6#64 := by decide

/-- Specification: calls that touch the table by identifier. -/
def touchesIDs {α : Type} (K : Keys α) : ECall α → Prop
  | .register y => K.id y ≠ 0#64
  | .unRegister _ => True
  | .getByID id => id ≠ 0#64
  | .getByMediaType _ => False

/-- C290 violated: a registration of a new error and any call of another goroutine that touches the table by identifier, even a lookup, can meet so that the
runtime ends the program: nothing locks the tables. -/
theorem C290_crash_violated {α : Type} (K : Keys α) (dev : Bool) (s : Errors.State α) (x : α) (hx : K.id x ≠ 0#64) (hn : s.byID (K.id x) = none)
    (c : ECall α) (hc : touchesIDs K c) :
    ∃ sched, ((start s fun i => (two [ECall.register x] [c] i).map (ECall.code K dev)).run sched).fatal = true := by
  cases dev with
  | false =>
    refine ⟨[0, 1], ?_⟩
    cases c with
    | register y => rfl
    | unRegister y => rfl
    | getByID id =>
      have h : id ≠ 0#64 := hc
      simp [Sys.run, start, two, ECall.code, Sys.go, setThread, setMark, h]
    | getByMediaType mt => exact hc.elim
  | true =>
    refine ⟨[0, 0, 1], ?_⟩
    cases c with
    | register y =>
      have h : K.id y ≠ 0#64 := hc
      simp [Sys.run, start, two, ECall.code, Sys.go, setThread, setMark, hx, hn, h]
    | unRegister y => simp [Sys.run, start, two, ECall.code, Sys.go, setThread, setMark, hx, hn]
    | getByID id =>
      have h : id ≠ 0#64 := hc
      simp [Sys.run, start, two, ECall.code, Sys.go, setThread, setMark, hx, hn, h]
    | getByMediaType mt => exact hc.elim

example : ((start (Errors.init (α := BitVec 64)) fun i => (two [ECall.register 5#64] [.getByID 9#64] i).map (ECall.code demoKeys true)).run [0, 0, 1]).fatal = true ∧
    touchesIDs demoKeys (.getByID 9#64) := ⟨by decide, show (9#64 : BitVec 64) ≠ 0#64 by decide⟩

/-- C290 violated: two goroutines that register two errors with one identifier can both be told that it was free, also without the program being ended; the later one
replaces the earlier. -/
theorem C290_duplicate_violated {α : Type} (K : Keys α) (s : Errors.State α) (x y : α) (hx : K.id x ≠ 0#64) (hxy : K.id y = K.id x)
    (hn : s.byID (K.id x) = none) :
    ∃ sched, ∀ z, z = (start s fun i => (two [ECall.register x] [ECall.register y] i).map (ECall.code K true)).run sched →
      z.fatal = false ∧ (z.threads 0).answers = [.done none] ∧ (z.threads 1).answers = [.done none] ∧ z.shared.byID (K.id x) = some y ∧
      z.shared.byMediaType (K.text y) = some y := by
  refine ⟨[0, 1, 0, 0, 0, 0, 0, 1, 1, 1, 1, 1], ?_⟩
  intro z hz
  have hy : K.id y ≠ 0#64 := by rw [hxy]; exact hx
  have e : z = ⟨⟨put (put s.byID (K.id x) x) (K.id y) y, put (put s.byMediaType (K.text x) x) (K.text y) y⟩, z.writing, false, z.threads⟩ ∧
      (z.threads 0).answers = [.done none] ∧ (z.threads 1).answers = [.done none] := by
    rw [hz]
    simp [Sys.run, start, two, ECall.code, Sys.go, setThread, setMark, hx, hn, hxy]
  obtain ⟨e, e1, e2⟩ := e
  refine ⟨by rw [e], e1, e2, ?_, ?_⟩
  · rw [e]; simp [put, hxy]
  · rw [e]; simp [put]

example : demoKeys.id 5#64 ≠ 0#64 ∧ (Errors.init (α := BitVec 64)).byID (demoKeys.id 5#64) = none := by decide

/-- C290 violated: a registration and a removal of one error that overlap can leave it findable by its media type and not by its identifier, for ever. -/
theorem C290_indexes_violated {α : Type} (K : Keys α) (dev : Bool) (s : Errors.State α) (x : α) (hx : K.id x ≠ 0#64) (hn : s.byID (K.id x) = none) :
    ∃ sched, ∀ z, z = (start s fun i => (two [ECall.register x] [ECall.unRegister x] i).map (ECall.code K dev)).run sched →
      z.fatal = false ∧ (z.threads 0).todo = [] ∧ (z.threads 1).todo = [] ∧
      Errors.getByID z.shared (K.id x) = .notFound ∧ Errors.getByMediaType z.shared (K.text x) = .found x := by
  cases dev with
  | true =>
    refine ⟨[0, 0, 0, 1, 1, 1, 1, 1, 0, 0, 0], ?_⟩
    intro z hz
    rw [hz]
    simp [Sys.run, start, two, ECall.code, Sys.go, setThread, setMark, hx, hn, Errors.getByID, Errors.getByMediaType, put, del]
  | false =>
    refine ⟨[0, 0, 1, 1, 1, 1, 1, 0, 0, 0], ?_⟩
    intro z hz
    rw [hz]
    simp [Sys.run, start, two, ECall.code, Sys.go, setThread, setMark, hx, Errors.getByID, Errors.getByMediaType, put, del]

example : demoKeys.id 5#64 ≠ 0#64 ∧ (Errors.init (α := BitVec 64)).byID (demoKeys.id 5#64) = none := by decide

/-- C290 violated: two registrations of media types always can meet so that the runtime ends the program, and so can a registration and a lookup by media type. -/
theorem C290_type_crash_violated {α : Type} (K : Types.TypeKeys α) (s : Types.MState α) (x : α) (hx : K.mainType x ≠ []) (c : MCall α)
    (hc : (∃ y, c = .register y ∧ K.mainType y ≠ []) ∨ ∃ mt, c = .getByMediaType mt) :
    ∃ sched, ((start s fun i => (two [MCall.register x] [c] i).map (MCall.code K)).run sched).fatal = true := by
  refine ⟨[0, 1], ?_⟩
  rcases hc with ⟨y, rfl, hy⟩ | ⟨mt, rfl⟩
  · simp [Sys.run, start, two, MCall.code, Sys.go, setThread, setMark, hx, hy]
  · simp [Sys.run, start, two, MCall.code, Sys.go, setThread, setMark, hx]

example : demoTypes.mainType 5#64 ≠ [] := by decide

/-- C290 violated: of two compress types registered by two goroutines, both without an error and without the program being ended, the content encoding of the first
can be missing for ever from the list that `ContentEncodings` answers, although the lookup by content encoding finds it. -/
theorem C290_encoding_lost_violated {α : Type} (K : Types.TypeKeys α) (s : Types.CState α) (x y : α) (hx : K.mediaType x ≠ []) (hx' : K.contentEncoding x ≠ [])
    (hy : K.mediaType y ≠ []) (hy' : K.contentEncoding y ≠ []) (hxy : K.contentEncoding x ≠ K.contentEncoding y) :
    ∃ sched, ∀ z, z = (start s fun i => (two [CCall.register x] [CCall.register y] i).map (CCall.code K)).run sched →
      z.fatal = false ∧ (z.threads 0).answers = [.done] ∧ (z.threads 1).answers = [.done] ∧
      z.shared.contentEncodings = s.contentEncodings ++ [K.contentEncoding y] ∧ z.shared.byContentEncoding (K.contentEncoding x) = some x := by
  refine ⟨[0, 0, 0, 0, 0, 0, 0, 0, 1, 1, 1, 1, 1, 1, 1, 1, 0, 1, 0, 1, 0, 1], ?_⟩
  intro z hz
  rw [hz]
  simp [Sys.run, start, two, CCall.code, Sys.go, setThread, setMark, hx, hx', hy, hy', put, hxy]

example : demoTypes.mediaType 5#64 ≠ [] ∧ demoTypes.contentEncoding 6#64 ≠ [] ∧ demoTypes.contentEncoding 5#64 ≠ demoTypes.contentEncoding 6#64 := by decide

end Memar.Registry.Parallel
