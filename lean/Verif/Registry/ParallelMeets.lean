import Verif.Registry.ParallelProps

/-!
# When a lookup meets a registration, C290

One goroutine has made any number of steps of a registration or a removal when another makes a lookup. The runtime ends the program exactly when the first is
inside its write of the very table the lookup reads: lookups of the other tables pass.
-/

namespace Memar.Registry.Parallel
open Memar

variable {σ ρ : Type}

/-- Specification: in which of its writes a registration of a compress type must be for the lookup to end the program, counted from 0: `Register` writes by
identifier, media type, file extension and content encoding. `none`: the lookup reads none of the tables. -/
def CCall.tableRead {α : Type} : CCall α → Option Nat
  | .register _ => none
  | .getByID _ => some 0
  | .getByMediaType _ => some 1
  | .getByFileExtension _ => some 2
  | .getByContentEncoding _ => some 3
  | .contentEncodings => none

/-- Specification: the same for media types: `Register` writes by media type, identifier and, if there is one, file extension. -/
def MCall.tableRead {α : Type} : MCall α → Option Nat
  | .register _ => none
  | .getByMediaType _ => some 0
  | .getByID _ => some 1
  | .getByFileExtension _ => some 2

/-- Specification: the same for errors: `Register` and `UnRegister` write by identifier and media type. The identifier 0 is answered without a look. -/
def ECall.tableRead {α : Type} : ECall α → Option Nat
  | .register _ => none
  | .unRegister _ => none
  | .getByID id => if id = 0#64 then none else some 0
  | .getByMediaType _ => some 1

/-- Specification: the same for services: `Register` and `Delete` write by identifier and media type. -/
def SCall.tableRead {α : Type} : SCall α → Option Nat
  | .register _ => none
  | .delete _ => none
  | .services => none
  | .getByID _ => some 0
  | .getByMediaType _ => some 1

theorem idle (s : Sys σ ρ) (i : Nat) (h : (s.threads i).todo = []) (n : Nat) : s.run (List.replicate n i) = s := by
  induction n with
  | zero => rfl
  | succ n ih =>
    rw [List.replicate_succ, Sys.run, List.foldl_cons]
    have hg : s.go i = s := by unfold Sys.go; rw [h]; split <;> rfl
    rw [hg]; exact ih

/-- After `k` steps that leave goroutine 0 without calls, more steps of it change nothing. -/
theorem run_more (s : Sys σ ρ) (k n : Nat) (h : ((s.run (List.replicate k 0)).threads 0).todo = []) :
    s.run (List.replicate (n + k) 0 ++ [1]) = s.run (List.replicate k 0 ++ [1]) := by
  have h1 : List.replicate (n + k) 0 = List.replicate k 0 ++ List.replicate n 0 := by rw [List.replicate_append_replicate, Nat.add_comm]
  have h2 : ∀ a b, s.run (a ++ b) = (s.run a).run b := fun a b => List.foldl_append
  rw [h1, h2, h2, idle _ 0 h n, ← h2]

/-- C290 violated: a registration of a compress type and a lookup of another goroutine. The lookup ends the program exactly when it comes while the registration
is inside its write of the table that is read, the `k`-th, which it is after `2 * k + 1` steps; there is such a moment for each of the four tables. -/
theorem C290_compress_meets_violated {α : Type} (K : Types.TypeKeys α) (s : Types.CState α) (x : α) (hx : K.mediaType x ≠ []) (hx' : K.contentEncoding x ≠ [])
    (c : CCall α) (hc : c.lookup) (n : Nat) :
    ((start s fun i => (two [CCall.register x] [c] i).map (CCall.code K)).run (List.replicate n 0 ++ [1])).fatal = true ↔
      ∃ k, c.tableRead = some k ∧ n = 2 * k + 1 := by
  have key : ∀ n < 12, ((start s fun i => (two [CCall.register x] [c] i).map (CCall.code K)).run (List.replicate n 0 ++ [1])).fatal = true ↔
      ∃ k, c.tableRead = some k ∧ n = 2 * k + 1 := by
    intro n hn
    rcases c with y | id | mt | ex | ce | _
    · exact absurd hc id
    all_goals
      match n, hn with
      | 0, _ | 1, _ | 2, _ | 3, _ | 4, _ | 5, _ | 6, _ | 7, _ | 8, _ | 9, _ | 10, _ | 11, _ =>
        simp [Sys.run, start, two, CCall.code, Sys.go, setThread, setMark, hx, hx', CCall.tableRead, List.replicate]
  by_cases hn : n < 12
  · exact key n hn
  · obtain ⟨m, rfl⟩ : ∃ m, n = m + 11 := ⟨n - 11, by omega⟩
    rw [run_more _ 11 m (by simp [Sys.run, start, two, CCall.code, Sys.go, setThread, setMark, hx, hx', List.replicate]), key 11 (by omega)]
    constructor
    · rintro ⟨k, h1, h2⟩
      exfalso
      cases c <;> simp [CCall.tableRead] at h1 <;> omega
    · rintro ⟨k, h1, h2⟩
      exfalso
      cases c <;> simp [CCall.tableRead] at h1 <;> omega

example : demoTypes.mediaType 5#64 ≠ [] ∧ demoTypes.contentEncoding 5#64 ≠ [] := by decide

/-- C290 violated: the same for media types. The third write is only made for a type with a file extension. -/
theorem C290_media_meets_violated {α : Type} (K : Types.TypeKeys α) (s : Types.MState α) (x : α) (hx : K.mainType x ≠ []) (c : MCall α) (hc : c.lookup) (n : Nat) :
    ((start s fun i => (two [MCall.register x] [c] i).map (MCall.code K)).run (List.replicate n 0 ++ [1])).fatal = true ↔
      ∃ k, c.tableRead = some k ∧ n = 2 * k + 1 ∧ (k = 2 → K.fileExtension x ≠ []) := by
  have key : ∀ n < 8, ((start s fun i => (two [MCall.register x] [c] i).map (MCall.code K)).run (List.replicate n 0 ++ [1])).fatal = true ↔
      ∃ k, c.tableRead = some k ∧ n = 2 * k + 1 ∧ (k = 2 → K.fileExtension x ≠ []) := by
    intro n hn
    rcases c with y | id | mt | ex
    · exact absurd hc id
    all_goals
      by_cases he : K.fileExtension x = []
    all_goals
      match n, hn with
      | 0, _ | 1, _ | 2, _ | 3, _ | 4, _ | 5, _ | 6, _ | 7, _ =>
        simp [Sys.run, start, two, MCall.code, Sys.go, setThread, setMark, hx, he, MCall.tableRead, List.replicate]
  by_cases hn : n < 8
  · exact key n hn
  · obtain ⟨m, rfl⟩ : ∃ m, n = m + 7 := ⟨n - 7, by omega⟩
    rw [run_more _ 7 m (by by_cases he : K.fileExtension x = [] <;> simp [Sys.run, start, two, MCall.code, Sys.go, setThread, setMark, hx, he, List.replicate]),
      key 7 (by omega)]
    constructor
    · rintro ⟨k, h1, h2, _⟩
      exfalso
      cases c <;> simp [MCall.tableRead] at h1 <;> omega
    · rintro ⟨k, h1, h2, _⟩
      exfalso
      cases c <;> simp [MCall.tableRead] at h1 <;> omega

example : demoTypes.mainType 5#64 ≠ [] ∧ (MCall.getByID (α := BitVec 64) 5#64).tableRead = some 1 := by decide

/-- C290 violated: the same for errors, registered or removed. In development mode `Register` first looks the identifier up, one step more. -/
theorem C290_error_meets_violated {α : Type} (K : Keys α) (dev : Bool) (s : Errors.State α) (x : α) (hx : K.id x ≠ 0#64) (hn : s.byID (K.id x) = none)
    (c : ECall α) (hc : c.lookup) (n : Nat) :
    (((start s fun i => (two [ECall.register x] [c] i).map (ECall.code K dev)).run (List.replicate n 0 ++ [1])).fatal = true ↔
      ∃ k, c.tableRead = some k ∧ n = 2 * k + 1 + if dev then 1 else 0) ∧
    (((start s fun i => (two [ECall.unRegister x] [c] i).map (ECall.code K dev)).run (List.replicate n 0 ++ [1])).fatal = true ↔
      ∃ k, c.tableRead = some k ∧ n = 2 * k + 1) := by
  have key : ∀ n < 7, (((start s fun i => (two [ECall.register x] [c] i).map (ECall.code K dev)).run (List.replicate n 0 ++ [1])).fatal = true ↔
      ∃ k, c.tableRead = some k ∧ n = 2 * k + 1 + if dev then 1 else 0) ∧
    (((start s fun i => (two [ECall.unRegister x] [c] i).map (ECall.code K dev)).run (List.replicate n 0 ++ [1])).fatal = true ↔
      ∃ k, c.tableRead = some k ∧ n = 2 * k + 1) := by
    intro n hn'
    rcases c with y | y | id | mt
    · exact absurd hc id
    · exact absurd hc id
    · by_cases hi : id = 0#64 <;> cases dev
      all_goals
        match n, hn' with
        | 0, _ | 1, _ | 2, _ | 3, _ | 4, _ | 5, _ | 6, _ =>
          simp [Sys.run, start, two, ECall.code, Sys.go, setThread, setMark, hx, hn, hi, ECall.tableRead, List.replicate]
    · cases dev
      all_goals
        match n, hn' with
        | 0, _ | 1, _ | 2, _ | 3, _ | 4, _ | 5, _ | 6, _ =>
          simp [Sys.run, start, two, ECall.code, Sys.go, setThread, setMark, hx, hn, ECall.tableRead, List.replicate]
  by_cases hn' : n < 7
  · exact key n hn'
  · obtain ⟨m, rfl⟩ : ∃ m, n = m + 6 := ⟨n - 6, by omega⟩
    rw [run_more _ 6 m (by cases dev <;> simp [Sys.run, start, two, ECall.code, Sys.go, setThread, setMark, hx, hn, List.replicate]),
      run_more _ 6 m (by simp [Sys.run, start, two, ECall.code, Sys.go, setThread, setMark, List.replicate]), (key 6 (by omega)).1, (key 6 (by omega)).2]
    have hk : ∀ k, c.tableRead = some k → k < 2 := by
      intro k h1
      cases c <;> simp [ECall.tableRead] at h1 <;> omega
    constructor <;> constructor <;> rintro ⟨k, h1, h2⟩ <;> have := hk k h1 <;> exfalso <;> revert h2 <;> cases dev <;> simp <;> omega

example : demoKeys.id 5#64 ≠ 0#64 ∧ (Errors.init (α := BitVec 64)).byID (demoKeys.id 5#64) = none ∧
    (ECall.getByMediaType (α := BitVec 64) [5#8]).tableRead = some 1 := by decide

/-- C290 violated: the same for services: `Register` looks each key up before it writes it, `Delete` does not. -/
theorem C290_service_meets_violated {α : Type} (K : Keys α) (s : Services.State α) (x : α) (hx : K.id x ≠ 0#64) (hn : s.byID (K.id x) = none)
    (ht : s.byMediaType (K.text x) = none) (c : SCall α) (hc : c.lookup) (n : Nat) :
    (((start s fun i => (two [SCall.register x] [c] i).map (SCall.code K)).run (List.replicate n 0 ++ [1])).fatal = true ↔
      ∃ k, c.tableRead = some k ∧ n = 3 * k + 2) ∧
    (((start s fun i => (two [SCall.delete x] [c] i).map (SCall.code K)).run (List.replicate n 0 ++ [1])).fatal = true ↔
      ∃ k, c.tableRead = some k ∧ n = 2 * k + 1) := by
  have key : ∀ n < 10, (((start s fun i => (two [SCall.register x] [c] i).map (SCall.code K)).run (List.replicate n 0 ++ [1])).fatal = true ↔
      ∃ k, c.tableRead = some k ∧ n = 3 * k + 2) ∧
    (((start s fun i => (two [SCall.delete x] [c] i).map (SCall.code K)).run (List.replicate n 0 ++ [1])).fatal = true ↔
      ∃ k, c.tableRead = some k ∧ n = 2 * k + 1) := by
    intro n hn'
    rcases c with y | y | _ | id | mt
    · exact absurd hc id
    · exact absurd hc id
    all_goals
      match n, hn' with
      | 0, _ | 1, _ | 2, _ | 3, _ | 4, _ | 5, _ | 6, _ | 7, _ | 8, _ | 9, _ =>
        simp [Sys.run, start, two, SCall.code, Sys.go, setThread, setMark, hx, hn, ht, SCall.tableRead, List.replicate]
  by_cases hn' : n < 10
  · exact key n hn'
  · obtain ⟨m, rfl⟩ : ∃ m, n = m + 9 := ⟨n - 9, by omega⟩
    rw [run_more _ 9 m (by simp [Sys.run, start, two, SCall.code, Sys.go, setThread, setMark, hx, hn, ht, List.replicate]),
      run_more _ 9 m (by simp [Sys.run, start, two, SCall.code, Sys.go, setThread, setMark, List.replicate]), (key 9 (by omega)).1, (key 9 (by omega)).2]
    have hk : ∀ k, c.tableRead = some k → k < 2 := by
      intro k h1
      cases c <;> simp [SCall.tableRead] at h1 <;> omega
    constructor <;> constructor <;> rintro ⟨k, h1, h2⟩ <;> have := hk k h1 <;> exfalso <;> omega

example : demoKeys.id 5#64 ≠ 0#64 ∧ (Services.init (α := BitVec 64)).byID (demoKeys.id 5#64) = none ∧
    (Services.init (α := BitVec 64)).byMediaType (demoKeys.text 5#64) = none ∧ (SCall.getByMediaType (α := BitVec 64) [5#8]).tableRead = some 1 := by decide

/-- C290 violated: a registration of a service is ended already by its look at a table another goroutine is inside a removal from: at its first step if
that is the table by identifier; at its fourth, after it wrote that one, if it is the table by media type. -/
theorem C290_register_meets_violated {α : Type} (K : Keys α) (s : Services.State α) (x y : α) (hx : K.id x ≠ 0#64) (hn : s.byID (K.id x) = none) (n : Nat) :
    (((start s fun i => (two [SCall.register x] [SCall.delete y] i).map (SCall.code K)).run (1 :: List.replicate n 0)).fatal = true ↔ 1 ≤ n) ∧
    (((start s fun i => (two [SCall.register x] [SCall.delete y] i).map (SCall.code K)).run (1 :: 1 :: 1 :: List.replicate n 0)).fatal = true ↔ 4 ≤ n) := by
  have stay : ∀ (z : Sys (Services.State α) (SAnswer α)), z.fatal = true → ∀ m, (z.run (List.replicate m 0)).fatal = true := by
    intro z hz m
    induction m with
    | zero => exact hz
    | succ m ih =>
      rw [List.replicate_succ, Sys.run, List.foldl_cons]
      have hg : z.go 0 = z := by unfold Sys.go; rw [if_pos hz]
      rw [hg]; exact ih
  have happ : ∀ (z : Sys (Services.State α) (SAnswer α)) a b, z.run (a ++ b) = (z.run a).run b := fun z a b => List.foldl_append
  have hdel : (del s.byID (K.id y)) (K.id x) = none := by
    unfold del; split <;> first | rfl | exact hn
  constructor
  · match n with
    | 0 => simp [Sys.run, start, two, SCall.code, Sys.go, setThread, setMark]
    | n + 1 =>
      have hl : 1 :: List.replicate (n + 1) 0 = [1, 0] ++ List.replicate n 0 := rfl
      rw [hl, happ]
      refine ⟨fun _ => by omega, fun _ => stay _ ?_ n⟩
      simp [Sys.run, start, two, SCall.code, Sys.go, setThread, setMark, hx]
  · match n with
    | 0 | 1 | 2 | 3 => simp [Sys.run, start, two, SCall.code, Sys.go, setThread, setMark, hx, hdel, List.replicate]
    | n + 4 =>
      have hl : 1 :: 1 :: 1 :: List.replicate (n + 4) 0 = [1, 1, 1, 0, 0, 0, 0] ++ List.replicate n 0 := rfl
      rw [hl, happ]
      refine ⟨fun _ => by omega, fun _ => stay _ ?_ n⟩
      simp [Sys.run, start, two, SCall.code, Sys.go, setThread, setMark, hx, hdel]

end Memar.Registry.Parallel
