import Verif.Go.ParserProps
import Verif.Syllab.GenProps2

/-!
# Where properties that are violated do hold: generated codecs and parsed Go files
-/

namespace Memar.Syllab.Gen
open Memar

/-! ## Which fields get code -/

namespace GSpec

/-- The types of fields that the generator has code for. -/
def written : FType → Bool
  | .ident s => decide (s ∉ ["int", "uint"])
  | .slice (.name s) => decide (s ∈ ["bool", "byte", "uint8", "int8", "uint16", "int16", "uint32", "int32", "uint64", "int64", "string"])
  | .array (.num _) (.name s) => decide
    (s ∈ ["bool", "byte", "uint8", "int8", "uint16", "int16", "uint32", "int32", "uint64", "int64", "float32", "float64", "string"])
  | .selector => true
  | _ => false

/-- Of these, the types that the decoder has code for too: all but arrays of strings. -/
def readBack : FType → Bool
  | .array _ (.name "string") => false
  | t => written t

/-- No anonymous struct, and no array whose length is not a decimal literal. -/
def Flat : FType → Prop
  | .struct _ => False
  | .array .expr _ => False
  | .array .badLiteral _ => False
  | _ => True

/-- The fields an encoder makes a call for, in order. -/
def encPaths (l : List ELine) : List String := l.filterMap fun | .call i => some i.path | _ => none
/-- The fields a decoder makes a call for, in order. -/
def decPaths (l : List DLine) : List String := l.filterMap fun | .call i _ => some i.path | _ => none

end GSpec
open GSpec

theorem encPaths_append (a b : List ELine) : encPaths (a ++ b) = encPaths a ++ encPaths b := List.filterMap_append ..
theorem decPaths_append (a b : List DLine) : decPaths (a ++ b) = decPaths a ++ decPaths b := List.filterMap_append ..

/-- What one field adds. -/
def Adds (sm sm' : SM) (name : String) (t : FType) : Prop :=
  sm'.types = sm.types ∧ sm'.frn = sm.frn ∧ encPaths sm'.enc = encPaths sm.enc ++ (if written t then [sm.frn ++ name] else []) ∧
    decPaths sm'.dec = decPaths sm.dec ++ (if readBack t then [sm.frn ++ name] else [])

theorem adds_emit (sm : SM) (name : String) (ty : GTy) (t : FType) (h1 : written t = true) (h2 : readBack t = true) :
    Adds sm (sm.emit name ty) name t := by
  refine ⟨rfl, rfl, ?_, ?_⟩
  · rw [if_pos h1]; show encPaths (sm.enc ++ _) = _; rw [encPaths_append]; rfl
  · rw [if_pos h2]; show decPaths (sm.dec ++ _) = _; rw [decPaths_append]; rfl

theorem adds_nothing (sm : SM) (name : String) (t : FType) (h1 : written t = false) (h2 : readBack t = false) : Adds sm sm name t := by
  refine ⟨rfl, rfl, ?_, ?_⟩
  · rw [h1]; simp
  · rw [h2]; simp

theorem loop_step (mk : SM → MRes) (name : String) (t : FType) (ht : Flat t) (rest : List (String × FType)) (sm : SM) (err : Option GErr) :
    ∃ sm', fieldsLoop mk ((name, t) :: rest) sm err = fieldsLoop mk rest sm' err ∧ Adds sm sm' name t := by
  cases t with
  | untyped => exact ⟨sm, rfl, adds_nothing _ _ _ rfl rfl⟩
  | map => exact ⟨sm, rfl, adds_nothing _ _ _ rfl rfl⟩
  | other => exact ⟨sm, rfl, adds_nothing _ _ _ rfl rfl⟩
  | selector => exact ⟨sm.selector name, rfl, adds_emit sm name .selector .selector rfl rfl⟩
  | struct o => exact absurd ht (by simp [Flat])
  | ident s =>
    refine ⟨sm.ident name s, rfl, ?_⟩
    unfold SM.ident
    by_cases hi : s = "int" ∨ s = "uint"
    · rw [if_pos hi]
      exact adds_nothing _ _ _ (by rcases hi with rfl | rfl <;> rfl) (by rcases hi with rfl | rfl <;> rfl)
    · rw [if_neg hi]
      have hw : written (.ident s) = true := by simp only [written]; simpa using hi
      cases scalarCase s with
      | some x => exact adds_emit sm name x.1 _ hw hw
      | none =>
        dsimp only
        split
        · exact adds_emit sm name .str _ hw hw
        · exact adds_emit sm name .nested _ hw hw
  | slice e =>
    refine ⟨sm.slice name e, rfl, ?_⟩
    cases e with
    | other => exact adds_nothing _ _ _ rfl rfl
    | name s =>
      by_cases hm : s ∈ ["bool", "byte", "uint8", "int8", "uint16", "int16", "uint32", "int32", "uint64", "int64", "string"]
      · have hw : written (.slice (.name s)) = true := by simp only [written]; exact decide_eq_true hm
        unfold SM.slice
        dsimp only
        cases hc : sliceCase s with
        | some x =>
          obtain ⟨t, m⟩ := x
          cases m with
          | some m => exact adds_emit sm name (.slice t) _ hw hw
          | none => exact adds_emit sm name (.slice t) _ hw hw
        | none =>
          dsimp only
          have hs : s = "string" := by
            simp only [List.mem_cons, List.not_mem_nil, or_false] at hm
            rcases hm with rfl | rfl | rfl | rfl | rfl | rfl | rfl | rfl | rfl | rfl | rfl <;> first | rfl | (simp [sliceCase] at hc)
          rw [if_pos hs]
          exact adds_emit sm name .strSlice _ hw hw
      · have hw : written (.slice (.name s)) = false := by simp only [written]; exact decide_eq_false hm
        have hs : s ≠ "string" := by rintro rfl; exact hm (by decide)
        unfold SM.slice
        dsimp only
        rw [sliceCase_none s hm]
        dsimp only
        rw [if_neg hs]
        exact adds_nothing _ _ _ hw hw
  | array l e =>
    cases l with
    | expr => exact absurd ht (by simp [Flat])
    | badLiteral => exact absurd ht (by simp [Flat])
    | num n =>
      refine ⟨sm.array name n e, rfl, ?_⟩
      cases e with
      | other => exact adds_nothing _ _ _ rfl rfl
      | name s =>
        by_cases hm : s ∈ ["bool", "byte", "uint8", "int8", "uint16", "int16", "uint32", "int32", "uint64", "int64", "float32", "float64", "string"]
        · have hw : written (.array (.num n) (.name s)) = true := by simp only [written]; exact decide_eq_true hm
          unfold SM.array
          dsimp only
          cases hc : arrayCase s with
          | some x =>
            have hs : s ≠ "string" := by rintro rfl; simp [arrayCase] at hc
            have hr : readBack (.array (.num n) (.name s)) = true := by
              unfold readBack
              split
              · rename_i h; injection h with h1 h2; injection h2 with h2; exact absurd h2 hs
              · exact hw
            exact adds_emit sm name (.arr x.1 n) _ hw hr
          | none =>
            dsimp only
            have hs : s = "string" := by
              simp only [List.mem_cons, List.not_mem_nil, or_false] at hm
              rcases hm with rfl | rfl | rfl | rfl | rfl | rfl | rfl | rfl | rfl | rfl | rfl | rfl | rfl <;>
                first | rfl | (simp [arrayCase] at hc)
            rw [if_pos hs]
            subst hs
            refine ⟨rfl, rfl, ?_, ?_⟩
            · rw [if_pos hw]; show encPaths (sm.enc ++ _) = _; rw [encPaths_append]; rfl
            · show decPaths sm.dec = _; simp [readBack]
        · have hw : written (.array (.num n) (.name s)) = false := by simp only [written]; exact decide_eq_false hm
          have hs : s ≠ "string" := by rintro rfl; exact hm (by decide)
          have hr : readBack (.array (.num n) (.name s)) = false := by
            unfold readBack
            split
            · rfl
            · exact hw
          unfold SM.array
          dsimp only
          rw [arrayCase_none s hm]
          dsimp only
          rw [if_neg hs]
          exact adds_nothing _ _ _ hw hr

theorem loop_paths (mk : SM → MRes) (fs : List (String × FType)) (hf : ∀ f ∈ fs, Flat f.2) : ∀ (sm : SM) (err : Option GErr),
    ∃ sm', fieldsLoop mk fs sm err = .done sm' err ∧
      encPaths sm'.enc = encPaths sm.enc ++ (fs.filter fun f => written f.2).map (fun f => sm.frn ++ f.1) ∧
      decPaths sm'.dec = decPaths sm.dec ++ (fs.filter fun f => readBack f.2).map (fun f => sm.frn ++ f.1) := by
  induction fs with
  | nil => intro sm err; exact ⟨sm, rfl, by simp, by simp⟩
  | cons f fs ih =>
    intro sm err
    obtain ⟨name, t⟩ := f
    obtain ⟨s1, e1, _, a1, a2, a3⟩ := loop_step mk name t (hf _ (List.mem_cons_self ..)) fs sm err
    obtain ⟨s2, e2, b2, b3⟩ := ih (fun g hg => hf g (List.mem_cons_of_mem _ hg)) s1 err
    refine ⟨s2, e1.trans e2, ?_, ?_⟩
    · rw [b2, a2, a1, List.append_assoc, List.filter_cons]
      congr 1
      by_cases h : written t = true <;> simp [h]
    · rw [b3, a3, a1, List.append_assoc, List.filter_cons]
      congr 1
      by_cases h : readBack t = true <;> simp [h]

/-- **C226**, the part that holds: for every struct without anonymous structs and with decimal array lengths code is generated without an error. Its
encoder makes one call for each named field of a supported type, in the order of the fields, and no other call; so does its decoder, except for
arrays of strings. Missing: the other fields, which are left out, and arrays of strings in the decoder. -/
theorem C226_one_call_each_partial (fuel : Nat) (noCopy : Bool) (types : List (String × TDecl)) (rn typ : String) (fs : List Field)
    (ht : types.lookup typ = some (.struct fs)) (hf : ∀ f ∈ members fs, Flat f.2) :
    ∃ sm, make (fuel + 1) (fresh noCopy types rn typ) = .done sm none ∧
      encPaths sm.close.enc = ((members fs).filter fun f => written f.2).map (fun f => rn ++ "." ++ f.1) ∧
      decPaths sm.close.dec = ((members fs).filter fun f => readBack f.2).map (fun f => rn ++ "." ++ f.1) := by
  obtain ⟨sm, h1, h2, h3⟩ := loop_paths (make fuel) (members fs) hf (fresh noCopy types rn typ).header none
  refine ⟨sm, by rw [make_struct fuel noCopy types rn typ fs ht]; exact h1, ?_, ?_⟩
  · show encPaths (sm.enc ++ _) = _
    rw [encPaths_append, h2]
    simp [SM.header, fresh, encPaths]
  · show decPaths (sm.dec ++ _) = _
    rw [decPaths_append, h3]
    simp [SM.header, fresh, decPaths]

/-- Case: two supported fields, one that is left out, and one that only the encoder knows. -/
example : let fs : List Field := [⟨["A", "B"], .ident "uint16", none⟩, ⟨["C"], .ident "int", none⟩, ⟨["D"], .array (.num 2) (.name "string"), none⟩]
    (∀ f ∈ members fs, Flat f.2) ∧ ((members fs).filter fun f => written f.2).map (·.1) = ["A", "B", "D"] ∧
      ((members fs).filter fun f => readBack f.2).map (·.1) = ["A", "B"] := by
  refine ⟨?_, by decide, by decide⟩
  intro f hf
  simp [members] at hf
  rcases hf with rfl | rfl | rfl | rfl <;> trivial

/-! ## When the generator ends -/

/-- The type the generator goes on with when it meets an anonymous struct in a struct: the one named like the first field of it. -/
inductive Inside (types : List (String × TDecl)) : String → String → Prop
  | mk (typ first name : String) (fs : List Field) : types.lookup typ = some (.struct fs) → (name, FType.struct (some first)) ∈ members fs →
      Inside types first typ

theorem loop_types_kept (mk : SM → MRes) (hmk : ∀ sm sm' err, mk sm = .done sm' err → sm'.types = sm.types) (fs : List (String × FType)) :
    ∀ (sm sm' : SM) (err err' : Option GErr), fieldsLoop mk fs sm err = .done sm' err' → sm'.types = sm.types := by
  induction fs with
  | nil => intro sm sm' err err' h; simp only [fieldsLoop, MRes.done.injEq] at h; rw [h.1]
  | cons f fs ih =>
    intro sm sm' err err' h
    obtain ⟨name, t⟩ := f
    cases t with
    | untyped => exact ih _ _ _ _ h
    | map => exact ih _ _ _ _ h
    | other => exact ih _ _ _ _ h
    | selector => exact ih (sm.selector name) _ _ _ h
    | ident s =>
      refine (ih _ _ _ _ h).trans ?_
      unfold SM.ident
      split
      · rfl
      · split
        · rfl
        · split <;> rfl
    | slice e =>
      refine (ih _ _ _ _ h).trans ?_
      unfold SM.slice
      cases e with
      | other => rfl
      | name s =>
        dsimp only
        split
        · rfl
        · rfl
        · split <;> rfl
    | array l e =>
      cases l with
      | expr => simp [fieldsLoop] at h
      | badLiteral => simp only [fieldsLoop, MRes.done.injEq] at h; rw [h.1]
      | num n =>
        refine (ih _ _ _ _ h).trans ?_
        unfold SM.array
        cases e with
        | other => rfl
        | name s =>
          dsimp only
          split
          · rfl
          · split <;> rfl
    | struct o =>
      cases o with
      | none => simp [fieldsLoop] at h
      | some first =>
        rw [fieldsLoop] at h
        cases hm : mk { sm with frn := sm.frn ++ name ++ ".", rtn := first } with
        | panic => rw [hm] at h; cases h
        | deeper => rw [hm] at h; cases h
        | done s e =>
          rw [hm] at h
          have h3 := hmk _ _ _ hm
          exact (ih _ _ _ _ h).trans h3

theorem make_types_kept (n : Nat) : ∀ (sm sm' : SM) (err : Option GErr), make n sm = .done sm' err → sm'.types = sm.types := by
  induction n with
  | zero => intro sm sm' err h; cases h
  | succ n ih =>
    intro sm sm' err h
    have hh : sm.header.types = sm.types := by unfold SM.header; split <;> rfl
    rw [make] at h
    split at h
    · cases h; rfl
    · cases h; exact hh
    · exact (loop_types_kept _ ih _ _ _ _ _ h).trans hh

/-- The rounds end when the calls for anonymous structs do. -/
theorem loop_ends (mk : SM → MRes) (types : List (String × TDecl)) (hk : ∀ sm sm' err, mk sm = .done sm' err → sm'.types = sm.types)
    (fs : List (String × FType))
    (h : ∀ name first, (name, FType.struct (some first)) ∈ fs → ∀ sm : SM, sm.types = types → sm.rtn = first → mk sm ≠ .deeper) :
    ∀ (sm : SM) (err : Option GErr), sm.types = types → fieldsLoop mk fs sm err ≠ .deeper := by
  induction fs with
  | nil => intro sm err _ h; cases h
  | cons f fs ih =>
    intro sm err ht
    have ih := ih fun n g hg => h n g (List.mem_cons_of_mem _ hg)
    obtain ⟨name, t⟩ := f
    by_cases hf : Flat t
    · obtain ⟨s1, e1, a1, _⟩ := loop_step mk name t hf fs sm err
      rw [e1]
      exact ih s1 err (a1.trans ht)
    · cases t with
      | array l e =>
        cases l with
        | expr => intro hd; cases hd
        | badLiteral => intro hd; cases hd
        | num n => exact absurd trivial hf
      | struct o =>
        cases o with
        | none => intro hd; cases hd
        | some first =>
          have hm := h name first (List.mem_cons_self ..) { sm with frn := sm.frn ++ name ++ ".", rtn := first } ht rfl
          rw [fieldsLoop]
          cases hc : mk { sm with frn := sm.frn ++ name ++ ".", rtn := first } with
          | panic => intro hd; cases hd
          | deeper => exact absurd hc hm
          | done s e => exact ih _ _ ((hk _ _ _ hc).trans ht)
      | _ => exact absurd trivial hf

/-- **C127**, the part that holds: the generator comes to an end, with code, an error or a panic, for every type from which no endless chain leads by the
names of the first fields of anonymous structs, so for every type without anonymous structs. Missing: the other types, and right code for anonymous
and nested structs. -/
theorem C127_ends_partial (types : List (String × TDecl)) (typ : String) (h : Acc (Inside types) typ) :
    ∃ n, ∀ m, n ≤ m → ∀ sm : SM, sm.types = types → sm.rtn = typ → make m sm ≠ .deeper := by
  induction h with
  | intro typ _ ih =>
    cases hl : types.lookup typ with
    | none =>
      refine ⟨1, fun m hm sm ht hr => ?_⟩
      obtain ⟨m, rfl⟩ : ∃ k, m = k + 1 := ⟨m - 1, by omega⟩
      rw [make, ht, hr, hl]
      intro hd; cases hd
    | some d =>
      cases d with
      | other =>
        refine ⟨1, fun m hm sm ht hr => ?_⟩
        obtain ⟨m, rfl⟩ : ∃ k, m = k + 1 := ⟨m - 1, by omega⟩
        rw [make, ht, hr, hl]
        intro hd; cases hd
      | struct fs =>
        have hall : ∀ l : List (String × FType), (∀ x ∈ l, x ∈ members fs) → ∃ K, ∀ name first, (name, FType.struct (some first)) ∈ l →
            ∀ m, K ≤ m → ∀ sm : SM, sm.types = types → sm.rtn = first → make m sm ≠ .deeper := by
          intro l
          induction l with
          | nil => intro _; exact ⟨0, fun _ _ hx => nomatch hx⟩
          | cons x l ihl =>
            intro hx
            obtain ⟨K, hK⟩ := ihl fun y hy => hx y (List.mem_cons_of_mem _ hy)
            have hx0 := hx x (List.mem_cons_self ..)
            by_cases hs : ∃ first, x.2 = .struct (some first)
            · obtain ⟨first, hs⟩ := hs
              obtain ⟨k, hk⟩ := ih first (.mk typ first x.1 fs hl (by rw [← hs]; exact hx0))
              refine ⟨max k K, fun name g hg m hm => ?_⟩
              rcases List.mem_cons.1 hg with e | hg
              · have : g = first := by
                  rw [← e] at hs
                  injection hs with hs; injection hs
                rw [this]
                exact hk m (by omega)
              · exact hK name g hg m (by omega)
            · refine ⟨K, fun name g hg => ?_⟩
              rcases List.mem_cons.1 hg with e | hg
              · exact absurd ⟨g, by rw [← e]⟩ hs
              · exact hK name g hg
        obtain ⟨K, hK⟩ := hall (members fs) fun _ h => h
        refine ⟨K + 1, fun m hm sm ht hr => ?_⟩
        obtain ⟨m, rfl⟩ : ∃ k, m = k + 1 := ⟨m - 1, by omega⟩
        rw [make, ht, hr, hl]
        dsimp only
        refine loop_ends (make m) types (make_types_kept m) (members fs) (fun name first hx => hK name first hx m (by omega)) _ _ ?_
        rw [← ht]
        unfold SM.header
        split <;> rfl

/-- Case: a struct with an anonymous struct whose first field is named like another struct without one. -/
example : Acc (Inside [("T", .struct [⟨["a"], .struct (some "U"), none⟩]), ("U", .struct [⟨["x"], .ident "byte", none⟩])]) "T" := by
  refine ⟨_, fun y hy => ?_⟩
  obtain ⟨_, _, name, fs, hl, hm⟩ := hy
  simp [List.lookup] at hl
  subst hl
  simp [members] at hm
  obtain ⟨_, rfl⟩ := hm
  refine ⟨_, fun z hz => ?_⟩
  obtain ⟨_, _, name, fs, hl, hm⟩ := hz
  simp [List.lookup] at hl
  subst hl
  simp [members] at hm

end Memar.Syllab.Gen

namespace Memar.GoParser
open Memar GSpec

namespace GSpec

/-- The type expressions that are looked up for a declaration: of declared types, and of the first parameter and the results of services. -/
def lookedUp (exported : Bytes → Bool) : Decl → List Expr
  | .types ss => ss.map (·.2)
  | .value => []
  | .func d =>
    if exported d.name = true ∧ d.params.length = 2 then (d.params.take 1).map (·.2) ++ (flat (d.results.getD [])).map (·.2) else []

end GSpec

theorem addTypes_isSome (exported : Bytes → Bool) (decls : List Expr) (k : Nat) : ∀ (ss : List (Bytes × Expr)) (p : Package),
    (∃ q, addTypes exported decls k ss p = some q) ↔ ∀ s ∈ ss, ∃ t, parseType decls p.imports k s.2 = some t
  | [], p => by simp [addTypes]
  | s :: ss, p => by
    rw [addTypes, addType]
    cases h : parseType decls p.imports k s.2 with
    | none => simp [h]
    | some t =>
      simp only [Option.map_some, Option.bind_some]
      rw [addTypes_isSome exported decls k ss]
      simp [h]

theorem resultNames_isSome (exported : Bytes → Bool) (f : Expr → Option Ty) (e : Expr) : ∀ (ns : List Bytes) (fn : Function),
    (∃ q, resultNames exported f e ns fn = some q) ↔ ∀ n ∈ ns, ∃ t, f e = some t
  | [], fn => by simp [resultNames]
  | n :: ns, fn => by
    rw [resultNames]
    cases h : f e with
    | none => simp only [Option.bind_none, reduceCtorEq, exists_false, false_iff]; intro hc; exact hc n (List.mem_cons_self ..)
    | some t =>
      simp only [Option.bind_some]
      rw [resultNames_isSome exported f e ns]
      simp [h]

theorem results_isSome (exported : Bytes → Bool) (f : Expr → Option Ty) : ∀ (rs : List (List Bytes × Expr)) (fn : Function),
    (∃ q, results exported f rs fn = some q) ↔ ∀ x ∈ flat rs, ∃ t, f x.2 = some t
  | [], fn => by simp [results, flat]
  | (ns, e) :: rs, fn => by
    have hf : flat ((ns, e) :: rs) = (ns.map fun n => (n, e)) ++ flat rs := rfl
    rw [results, hf]
    have h1 := resultNames_isSome exported f e ns fn
    cases h : resultNames exported f e ns fn with
    | none =>
      rw [h] at h1
      simp only [Option.bind_none, reduceCtorEq, exists_false, false_iff, List.mem_append, List.mem_map]
      intro hc
      have : ∃ q, (none : Option Function) = some q := h1.2 fun n hn => hc (n, e) (.inl ⟨n, hn, rfl⟩)
      obtain ⟨q, hq⟩ := this
      cases hq
    | some g =>
      simp only [Option.bind_some]
      rw [results_isSome exported f rs]
      have hn := h1.1 ⟨g, h⟩
      constructor
      · intro hr x hx
        rcases List.mem_append.1 hx with hx | hx
        · obtain ⟨n, hm, rfl⟩ := List.mem_map.1 hx
          exact hn n hm
        · exact hr x hx
      · intro hr x hx
        exact hr x (List.mem_append_right _ hx)

theorem addFunc_isSome (exported : Bytes → Bool) (decls : List Expr) (k : Nat) (p : Package) (d : FuncDecl) :
    (∃ q, addFunc exported decls k p d = some q) ↔
      (∀ e ∈ lookedUp exported (.func d), ∃ t, parseType decls p.imports k e = some t) ∧
      (IsService exported d → ∃ n ns e g, d.params = [(n :: ns, e), g]) := by
  unfold addFunc IsService
  simp only [lookedUp]
  by_cases hx : exported d.name = false
  · rw [if_pos hx]; simp [hx]
  · rw [if_neg hx]
    have hx' : exported d.name = true := by simpa using hx
    generalize d.params = ps
    match ps with
    | [] => simp
    | [a] => simp
    | a :: b :: c :: r => simp
    | [(ns, e), g] =>
      dsimp only
      rw [if_pos ⟨hx', rfl⟩]
      cases he : parseType decls p.imports k e with
      | none => simp [he]
      | some t =>
        simp only [Option.bind_some]
        cases ns with
        | nil => simp [hx']
        | cons n ns =>
          dsimp only
          have := results_isSome exported (parseType decls p.imports k) (d.results.getD [])
            { name := d.name, param := some { t with name := n, exported := exported n }, result := none, err := none }
          constructor
          · rintro ⟨q, hq⟩
            rw [Option.map_eq_some_iff] at hq
            obtain ⟨fn, hfn, -⟩ := hq
            have hr := this.1 ⟨fn, hfn⟩
            refine ⟨?_, fun _ => ⟨n, ns, e, g, rfl⟩⟩
            intro x hm
            simp only [List.take_succ_cons, List.take_zero, List.map_cons, List.map_nil, List.cons_append, List.nil_append, List.mem_cons,
              List.mem_map] at hm
            rcases hm with rfl | ⟨y, hy, rfl⟩
            · exact ⟨t, he⟩
            · exact hr y hy
          · rintro ⟨hl, -⟩
            obtain ⟨fn, hfn⟩ := this.2 fun x hm => hl x.2 (by simp; right; exact ⟨x.1, hm⟩)
            exact ⟨_, by rw [hfn]; rfl⟩

theorem addDecls_isSome (exported : Bytes → Bool) (decls : List Expr) (k : Nat) : ∀ (ds : List Decl) (p : Package),
    (∃ q, addDecls exported decls k ds p = some q) ↔
      (∀ d ∈ ds, ∀ e ∈ lookedUp exported d, ∃ t, parseType decls p.imports k e = some t) ∧
      (∀ d, .func d ∈ ds → IsService exported d → ∃ n ns e g, d.params = [(n :: ns, e), g])
  | [], p => by simp [addDecls]
  | .value :: ds, p => by
    rw [addDecls, addDecls_isSome exported decls k ds p]
    simp [lookedUp]
  | .types ss :: ds, p => by
    rw [addDecls]
    have h1 := addTypes_isSome exported decls k ss p
    have hl : (∀ e ∈ lookedUp exported (.types ss), ∃ t, parseType decls p.imports k e = some t) ↔
        ∀ s ∈ ss, ∃ t, parseType decls p.imports k s.2 = some t := by
      simp only [lookedUp, List.mem_map]
      exact ⟨fun h s hs => h _ ⟨s, hs, rfl⟩, by rintro h _ ⟨s, hs, rfl⟩; exact h s hs⟩
    cases h : addTypes exported decls k ss p with
    | none =>
      rw [h] at h1
      simp only [Option.bind_none, reduceCtorEq, exists_false, false_iff]
      rintro ⟨hc, -⟩
      have := h1.2 (hl.1 (hc _ (List.mem_cons_self ..)))
      obtain ⟨q, hq⟩ := this
      cases hq
    | some q =>
      have hi := (addTypes_functions exported decls k ss p q h).2
      have hs := hl.2 (h1.1 ⟨q, h⟩)
      simp only [Option.bind_some]
      rw [addDecls_isSome exported decls k ds q, hi]
      simp only [List.forall_mem_cons]
      constructor
      · rintro ⟨a, b⟩
        exact ⟨⟨hs, a⟩, fun d hd => b d (by rcases List.mem_cons.1 hd with hd | hd; cases hd; exact hd)⟩
      · rintro ⟨⟨_, a⟩, b⟩
        exact ⟨a, fun d hd => b d (List.mem_cons_of_mem _ hd)⟩
  | .func f :: ds, p => by
    rw [addDecls]
    have h1 := addFunc_isSome exported decls k p f
    cases h : addFunc exported decls k p f with
    | none =>
      rw [h] at h1
      simp only [Option.bind_none, reduceCtorEq, exists_false, false_iff]
      rintro ⟨hc, hn⟩
      have := h1.2 ⟨hc _ (List.mem_cons_self ..), hn f (List.mem_cons_self ..)⟩
      obtain ⟨q, hq⟩ := this
      cases hq
    | some q =>
      have hi := (addFunc_types exported decls k p q f h).2
      obtain ⟨hs, hn⟩ := h1.1 ⟨q, h⟩
      simp only [Option.bind_some]
      rw [addDecls_isSome exported decls k ds q, hi]
      simp only [List.forall_mem_cons]
      constructor
      · rintro ⟨a, b⟩
        refine ⟨⟨hs, a⟩, fun d hd => ?_⟩
        rcases List.mem_cons.1 hd with hd | hd
        · cases hd; exact hn
        · exact b d hd
      · rintro ⟨⟨_, a⟩, b⟩
        exact ⟨a, fun d hd => b d (List.mem_cons_of_mem _ hd)⟩

/-- **C228**, the part that holds: a file is parsed to its end exactly when no type that is looked up (a declared one, or one of the first parameter or of
the results of a service) is part of itself, and the first parameter of every service has a name. Missing: the other files, and what the other
theorems of C228 say is recorded wrongly. -/
theorem C228_parsed_iff_partial (exported : Bytes → Bool) (std : Bytes → Option Ast) (p : Package) (name data : Bytes) (a : Ast)
    (ha : std data = some a) :
    (∃ k p', p.parse exported std k name data = some (p', false)) ↔
      (∀ d ∈ a.decls, ∀ e ∈ lookedUp exported d, Acc (fun y x => Needs ((declared a.decls).map (·.2)) x y) e) ∧
      (∀ d, .func d ∈ a.decls → IsService exported d → ∃ n ns e g, d.params = [(n :: ns, e), g]) := by
  have hparse : ∀ k, (∃ p', p.parse exported std k name data = some (p', false)) ↔
      ∃ q, addDecls exported (typeSpecs a.decls) k a.decls
        (a.imports.foldl addImport { p with files := set p.files name data, name := a.package }) = some q := by
    intro k
    unfold Package.parse
    simp only [if_pos (cond_true name), ha, parseFile, Option.map_eq_some_iff]
    constructor
    · rintro ⟨p', q, hq, -⟩; exact ⟨q, hq⟩
    · rintro ⟨q, hq⟩; exact ⟨q, q, hq, rfl⟩
  simp only [hparse, addDecls_isSome]
  rw [typeSpecs_declared]
  generalize (a.imports.foldl addImport { p with files := set p.files name data, name := a.package }).imports = im
  constructor
  · rintro ⟨k, h1, h2⟩
    exact ⟨fun d hd e he => (C135_terminates _ im e).1 (by obtain ⟨t, ht⟩ := h1 d hd e he; exact ⟨k, t, ht⟩), h2⟩
  · rintro ⟨h1, h2⟩
    have hK : ∃ K, ∀ e ∈ a.decls.flatMap (lookedUp exported), ∃ t, parseType ((declared a.decls).map (·.2)) im K e = some t := by
      have hall : ∀ l : List Expr, (∀ e ∈ l, ∃ k t, parseType ((declared a.decls).map (·.2)) im k e = some t) →
          ∃ K, ∀ e ∈ l, ∃ t, parseType ((declared a.decls).map (·.2)) im K e = some t := by
        intro l
        induction l with
        | nil => intro _; exact ⟨0, fun _ h => nomatch h⟩
        | cons x l ih =>
          intro hl
          obtain ⟨K, hK⟩ := ih fun e he => hl e (List.mem_cons_of_mem _ he)
          obtain ⟨k, t, ht⟩ := hl x (List.mem_cons_self ..)
          refine ⟨max k K, fun e he => ?_⟩
          rcases List.mem_cons.1 he with rfl | he
          · exact ⟨t, parseType_mono _ im k _ (by omega) _ _ ht⟩
          · obtain ⟨t, ht⟩ := hK e he
            exact ⟨t, parseType_mono _ im K _ (by omega) _ _ ht⟩
      refine hall _ fun e he => ?_
      obtain ⟨d, hd, he⟩ := List.mem_flatMap.1 he
      exact (C135_terminates _ im e).2 (h1 d hd e he)
    obtain ⟨K, hK⟩ := hK
    exact ⟨K, fun d hd e he => hK e (List.mem_flatMap.2 ⟨d, hd, he⟩), h2⟩

open Example in
/-- Case: the file of a service is parsed, so its types are not part of themselves. -/
example := (C228_parsed_iff_partial upper (fun _ => some file) p0 (bs "a.go") [] file rfl).1 ⟨5, parsed, parsed_eq⟩

end Memar.GoParser
