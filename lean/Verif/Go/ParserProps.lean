import Verif.Go.Parser

/-!
# C135: services found in Go source files
-/

namespace Memar.GoParser
open Memar

/-! ## Specification -/

namespace GSpec

/-- Groups of names with one type each, one by one. A group without names has none. -/
def flat (fs : List (List Bytes × Expr)) : List (Bytes × Expr) := fs.flatMap fun f => f.1.map fun n => (n, f.2)

/-- The type expression `y` is part of what `x` stands for: what a pointer points to, what a name is declared as, the type of a named field. -/
inductive Needs (decls : List Expr) : Expr → Expr → Prop
  | star (x) : Needs decls (.star x) x
  | ident (n i d) : decls[i]? = some d → Needs decls (.ident n (some i)) d
  | field (fs n e) : (n, e) ∈ flat fs → Needs decls (.struct fs) e

/-- A function that is taken for a service: exported, with two groups of parameters. -/
def IsService (exported : Bytes → Bool) (d : FuncDecl) : Prop := exported d.name = true ∧ d.params.length = 2

/-- What is recorded for the function declared by `d`. -/
def Records (exported : Bytes → Bool) (f : Expr → Option Ty) (d : FuncDecl) (fn : Function) : Prop :=
  fn.name = d.name ∧
  (∃ n ns e t, (d.params[0]? = some (n :: ns, e)) ∧ f e = some t ∧ fn.param = some { t with name := n, exported := exported n }) ∧
  ∃ ts : List Ty, ts.length = (flat (d.results.getD [])).length ∧
    (∀ (i : Nat) n e, (flat (d.results.getD []))[i]? = some (n, e) → ∃ t, f e = some t ∧ ts[i]? = some { t with name := n, exported := exported n }) ∧
    fn.result = ts.reverse.find? (fun t => decide (t.typ ≠ bs "error")) ∧ fn.err = ts.reverse.find? (fun t => decide (t.typ = bs "error"))

/-- The types declared in a file, in order. -/
def declared : List Decl → List (Bytes × Expr)
  | [] => []
  | .types ss :: ds => ss ++ declared ds
  | _ :: ds => declared ds

end GSpec
open GSpec

/-! ## Helper lemmas -/

theorem fieldNames_mono (f g : Expr → Option Ty) (e : Expr) (h : ∀ t, f e = some t → g e = some t) : ∀ (ns : List Bytes) (acc r : List Ty),
    fieldNames f e ns acc = some r → fieldNames g e ns acc = some r
  | [], _, _, hr => hr
  | n :: ns, acc, r, hr => by
    simp only [fieldNames, Option.bind_eq_some_iff] at hr ⊢
    obtain ⟨t, ht, hr⟩ := hr
    exact ⟨t, h t ht, fieldNames_mono f g e h ns _ r hr⟩

theorem structFields_mono (f g : Expr → Option Ty) (h : ∀ e t, f e = some t → g e = some t) : ∀ (fs : List (List Bytes × Expr)) (acc r : List Ty),
    structFields f fs acc = some r → structFields g fs acc = some r
  | [], _, _, hr => hr
  | (ns, e) :: fs, acc, r, hr => by
    simp only [structFields, Option.bind_eq_some_iff] at hr ⊢
    obtain ⟨t, ht, hr⟩ := hr
    exact ⟨t, fieldNames_mono f g e (h e) ns _ _ ht, structFields_mono f g h fs _ r hr⟩

theorem parseType_succ (decls : List Expr) (im : Bytes → Option (Bytes × Bytes)) : ∀ (k : Nat) (e : Expr) (t : Ty),
    parseType decls im k e = some t → parseType decls im (k + 1) e = some t
  | 0, _, _, h => by simp [parseType] at h
  | k + 1, .star x, t, h => by
    rw [parseType, Option.map_eq_some_iff] at h
    obtain ⟨s, hs, rfl⟩ := h
    rw [parseType, parseType_succ decls im k x s hs]; rfl
  | k + 1, .sel p n, t, h => by rw [parseType] at h ⊢; exact h
  | k + 1, .ident n obj, t, h => by
    rw [parseType] at h ⊢
    split at h
    · rename_i d hd
      rw [Option.map_eq_some_iff] at h
      obtain ⟨s, hs, rfl⟩ := h
      simp only [parseType_succ decls im k d s hs]; rfl
    · exact h
  | k + 1, .struct fs, t, h => by
    rw [parseType, Option.map_eq_some_iff] at h
    obtain ⟨s, hs, rfl⟩ := h
    rw [parseType, structFields_mono _ _ (parseType_succ decls im k) fs _ s hs]; rfl
  | k + 1, .other, t, h => by rw [parseType] at h ⊢; exact h

theorem parseType_mono (decls : List Expr) (im : Bytes → Option (Bytes × Bytes)) (k k' : Nat) (hk : k ≤ k') (e : Expr) (t : Ty)
    (h : parseType decls im k e = some t) : parseType decls im k' e = some t := by
  induction k' with
  | zero => have : k = 0 := by omega
            subst this; exact h
  | succ k' ih =>
    by_cases hx : k = k' + 1
    · subst hx; exact h
    · exact parseType_succ decls im k' e t (ih (by omega))

theorem fieldNames_spec (f : Expr → Option Ty) (e : Expr) : ∀ (ns : List Bytes) (acc r : List Ty), fieldNames f e ns acc = some r →
    r.length = acc.length + ns.length ∧ (∀ i, i < acc.length → r[i]? = acc[i]?) ∧
      ∀ i n, ns[i]? = some n → ∃ t, f e = some t ∧ r[acc.length + i]? = some { t with name := n, id := acc.length + i }
  | [], acc, r, h => by
    simp only [fieldNames, Option.some.injEq] at h
    subst h; simp
  | m :: ns, acc, r, h => by
    simp only [fieldNames, Option.bind_eq_some_iff] at h
    obtain ⟨t, ht, h⟩ := h
    obtain ⟨h1, h2, h3⟩ := fieldNames_spec f e ns _ r h
    simp only [List.length_append, List.length_cons, List.length_nil] at h1 h2 h3
    refine ⟨by simp only [List.length_cons]; omega, fun i hi => ?_, fun i n hn => ?_⟩
    · rw [h2 i (by omega), List.getElem?_append_left hi]
    · cases i with
      | zero =>
        have : m = n := by simpa using hn
        subst this
        refine ⟨t, ht, ?_⟩
        rw [Nat.add_zero, h2 _ (by omega), List.getElem?_append_right (Nat.le_refl _)]
        simp
      | succ i =>
        obtain ⟨u, hu, hr⟩ := h3 i n (by simpa using hn)
        refine ⟨u, hu, ?_⟩
        rw [show acc.length + (i + 1) = acc.length + (0 + 1) + i by omega]; exact hr

theorem structFields_spec (f : Expr → Option Ty) : ∀ (fs : List (List Bytes × Expr)) (acc r : List Ty), structFields f fs acc = some r →
    r.length = acc.length + (flat fs).length ∧ (∀ i, i < acc.length → r[i]? = acc[i]?) ∧
      ∀ i n e, (flat fs)[i]? = some (n, e) → ∃ t, f e = some t ∧ r[acc.length + i]? = some { t with name := n, id := acc.length + i }
  | [], acc, r, h => by
    simp only [structFields, Option.some.injEq] at h
    subst h; simp [flat]
  | (ns, x) :: fs, acc, r, h => by
    simp only [structFields, Option.bind_eq_some_iff] at h
    obtain ⟨acc', ha, h⟩ := h
    obtain ⟨a1, a2, a3⟩ := fieldNames_spec f x ns acc acc' ha
    obtain ⟨h1, h2, h3⟩ := structFields_spec f fs acc' r h
    have hf : flat ((ns, x) :: fs) = (ns.map fun n => (n, x)) ++ flat fs := rfl
    rw [hf]
    refine ⟨by simp only [List.length_append, List.length_map]; omega, fun i hi => ?_, fun i n e hn => ?_⟩
    · rw [h2 i (by omega), a2 i hi]
    · by_cases hi : i < ns.length
      · rw [List.getElem?_append_left (by simpa using hi), List.getElem?_map, Option.map_eq_some_iff] at hn
        obtain ⟨m, hm, he⟩ := hn
        obtain ⟨rfl, rfl⟩ : m = n ∧ x = e := by simpa using he
        obtain ⟨t, ht, hr⟩ := a3 i m hm
        exact ⟨t, ht, by rw [h2 _ (by omega), hr]⟩
      · rw [List.getElem?_append_right (by simp; omega), List.length_map] at hn
        obtain ⟨t, ht, hr⟩ := h3 _ n e hn
        refine ⟨t, ht, ?_⟩
        rw [show acc'.length + (i - ns.length) = acc.length + i by omega] at hr
        exact hr

theorem structFields_total (f : Expr → Option Ty) : ∀ (fs : List (List Bytes × Expr)) (acc : List Ty), (∀ n e, (n, e) ∈ flat fs → ∃ t, f e = some t) →
    ∃ r, structFields f fs acc = some r
  | [], acc, _ => ⟨acc, rfl⟩
  | (ns, x) :: fs, acc, h => by
    have hf : flat ((ns, x) :: fs) = (ns.map fun n => (n, x)) ++ flat fs := rfl
    have h1 : ∀ (ns' : List Bytes) (acc : List Ty), (∀ n ∈ ns', ∃ t, f x = some t) → ∃ r, fieldNames f x ns' acc = some r := by
      intro ns'
      induction ns' with
      | nil => intro acc _; exact ⟨acc, rfl⟩
      | cons n ns' ih =>
        intro acc hx
        obtain ⟨t, ht⟩ := hx n (by simp)
        rw [fieldNames, ht]
        exact ih _ fun m hm => hx m (by simp [hm])
    obtain ⟨acc', ha⟩ := h1 ns acc fun n hn => h n x (by rw [hf]; simp [hn])
    rw [structFields, ha]
    exact structFields_total f fs acc' fun n e he => h n e (by rw [hf]; simp [he])

/-! ## C135: types -/

/-- C135: the type found for a struct has one part for every named field, in order and numbered from 0, each with the name of the field and what is
found for the type of the field. Embedded fields are left out. -/
theorem C135_fields (decls : List Expr) (im : Bytes → Option (Bytes × Bytes)) (k : Nat) (fs : List (List Bytes × Expr)) (t : Ty)
    (h : parseType decls im (k + 1) (.struct fs) = some t) :
    t.inner.length = (flat fs).length ∧ t.typ = [] ∧ t.pointer = false ∧
      ∀ i n e, (flat fs)[i]? = some (n, e) → ∃ te, parseType decls im k e = some te ∧ t.inner[i]? = some { te with name := n, id := i } := by
  rw [parseType, Option.map_eq_some_iff] at h
  obtain ⟨r, hr, rfl⟩ := h
  obtain ⟨h1, _, h3⟩ := structFields_spec _ _ _ _ hr
  refine ⟨by simpa using h1, rfl, rfl, fun i n e hi => ?_⟩
  obtain ⟨te, hte, hx⟩ := h3 i n e hi
  exact ⟨te, hte, by simpa using hx⟩

/-- C135: a name stands for the parts of the type it is declared as, a pointer for what it points to, and a name of another package for that name
with the import of the package. -/
theorem C135_names (decls : List Expr) (im : Bytes → Option (Bytes × Bytes)) (k : Nat) :
    (∀ n i d t, decls[i]? = some d → parseType decls im k d = some t →
      parseType decls im (k + 1) (.ident n (some i)) = some { typ := n, inner := t.inner }) ∧
    (∀ n, parseType decls im (k + 1) (.ident n none) = some { typ := n }) ∧
    (∀ x t, parseType decls im k x = some t → parseType decls im (k + 1) (.star x) = some { t with pointer := true }) ∧
    (∀ p n, parseType decls im (k + 1) (.sel p n) = some { package := im p, typ := n }) := by
  refine ⟨fun n i d t hd ht => ?_, fun n => rfl, fun x t hx => ?_, fun p n => rfl⟩
  · rw [parseType]
    simp only [Option.bind_some, hd, ht, Option.map_some]
  · rw [parseType, hx]; rfl

/-- C135: looking up a type comes to an end exactly when the type is not part of itself. -/
theorem C135_terminates (decls : List Expr) (im : Bytes → Option (Bytes × Bytes)) (e : Expr) :
    (∃ k t, parseType decls im k e = some t) ↔ Acc (fun y x => Needs decls x y) e := by
  constructor
  · rintro ⟨k, t, h⟩
    induction k generalizing e t with
    | zero => simp [parseType] at h
    | succ k ih =>
      refine ⟨_, fun y hy => ?_⟩
      cases hy with
      | star =>
        rw [parseType, Option.map_eq_some_iff] at h
        obtain ⟨s, hs, -⟩ := h
        exact ih y s hs
      | ident n i _ hd =>
        rw [parseType] at h
        simp only [Option.bind_some, hd, Option.map_eq_some_iff] at h
        obtain ⟨s, hs, -⟩ := h
        exact ih y s hs
      | field fs n _ hm =>
        obtain ⟨i, hi⟩ := List.getElem?_of_mem hm
        obtain ⟨_, _, _, h3⟩ := C135_fields decls im k fs t h
        obtain ⟨te, hte, -⟩ := h3 i n y hi
        exact ih y te hte
  · intro ha
    induction ha with
    | intro e _ ih =>
      cases e with
      | star x =>
        obtain ⟨k, t, h⟩ := ih x (.star x)
        exact ⟨k + 1, _, by rw [parseType, h]; rfl⟩
      | sel p n => exact ⟨1, _, rfl⟩
      | other => exact ⟨1, _, rfl⟩
      | ident n obj =>
        cases hd : obj.bind (fun i => decls[i]?) with
        | none => exact ⟨1, { typ := n }, by rw [parseType]; simp only [hd]⟩
        | some d =>
          rw [Option.bind_eq_some_iff] at hd
          obtain ⟨i, rfl, hi⟩ := hd
          obtain ⟨k, t, h⟩ := ih d (.ident n i d hi)
          exact ⟨k + 1, _, (C135_names decls im k).1 n i d t hi h⟩
      | struct fs =>
        have hK : ∃ K, ∀ n e, (n, e) ∈ flat fs → ∃ t, parseType decls im K e = some t := by
          have hall : ∀ l : List (Bytes × Expr), (∀ x ∈ l, x ∈ flat fs) → ∃ K, ∀ n e, (n, e) ∈ l → ∃ t, parseType decls im K e = some t := by
            intro l
            induction l with
            | nil => intro _; exact ⟨0, by simp⟩
            | cons x l ihl =>
              intro hl
              obtain ⟨K, hK⟩ := ihl fun y hy => hl y (by simp [hy])
              obtain ⟨k, t, h⟩ := ih x.2 (.field fs x.1 x.2 (hl x (by simp)))
              refine ⟨max k K, fun n e he => ?_⟩
              rcases List.mem_cons.1 he with rfl | he
              · exact ⟨t, parseType_mono decls im k _ (by omega) _ _ h⟩
              · obtain ⟨t, ht⟩ := hK n e he
                exact ⟨t, parseType_mono decls im K _ (by omega) _ _ ht⟩
          exact hall (flat fs) fun _ h => h
        obtain ⟨K, hK⟩ := hK
        obtain ⟨r, hr⟩ := structFields_total (parseType decls im K) fs [] hK
        exact ⟨K + 1, _, by rw [parseType, hr]; rfl⟩

/-! ## C135: files -/

theorem imports_addDecls (exported : Bytes → Bool) (decls : List Expr) (k : Nat) : ∀ (ds : List Decl) (p p' : Package),
    addDecls exported decls k ds p = some p' → p'.imports = p.imports ∧ p'.files = p.files ∧ p'.name = p.name
  | [], p, p', h => by simp only [addDecls, Option.some.injEq] at h; subst h; exact ⟨rfl, rfl, rfl⟩
  | .types ss :: ds, p, p', h => by
    simp only [addDecls, Option.bind_eq_some_iff] at h
    obtain ⟨q, hq, h⟩ := h
    have := imports_addDecls exported decls k ds q p' h
    have hx : ∀ (ss : List (Bytes × Expr)) (p q : Package), addTypes exported decls k ss p = some q →
        q.imports = p.imports ∧ q.files = p.files ∧ q.name = p.name := by
      intro ss
      induction ss with
      | nil => intro p q h; simp only [addTypes, Option.some.injEq] at h; subst h; exact ⟨rfl, rfl, rfl⟩
      | cons s ss ih =>
        intro p q h
        simp only [addTypes, addType, Option.bind_eq_some_iff, Option.map_eq_some_iff] at h
        obtain ⟨r, ⟨t, _, rfl⟩, h⟩ := h
        have := ih _ q h
        exact this
    have h2 := hx ss p q hq
    exact ⟨this.1.trans h2.1, this.2.1.trans h2.2.1, this.2.2.trans h2.2.2⟩
  | .value :: ds, p, p', h => imports_addDecls exported decls k ds p p' (by simpa only [addDecls] using h)
  | .func d :: ds, p, p', h => by
    simp only [addDecls, Option.bind_eq_some_iff] at h
    obtain ⟨q, hq, h⟩ := h
    have := imports_addDecls exported decls k ds q p' h
    have h2 : q.imports = p.imports ∧ q.files = p.files ∧ q.name = p.name := by
      unfold addFunc at hq
      split at hq
      · cases hq; exact ⟨rfl, rfl, rfl⟩
      · split at hq
        · rw [Option.bind_eq_some_iff] at hq
          obtain ⟨t, _, hq⟩ := hq
          split at hq
          · cases hq
          · rw [Option.map_eq_some_iff] at hq
            obtain ⟨fn, _, rfl⟩ := hq
            exact ⟨rfl, rfl, rfl⟩
        · cases hq; exact ⟨rfl, rfl, rfl⟩
    exact ⟨this.1.trans h2.1, this.2.1.trans h2.2.1, this.2.2.trans h2.2.2⟩

theorem addTypes_functions (exported : Bytes → Bool) (decls : List Expr) (k : Nat) : ∀ (ss : List (Bytes × Expr)) (p q : Package),
    addTypes exported decls k ss p = some q → q.functions = p.functions ∧ q.imports = p.imports
  | [], p, q, h => by simp only [addTypes, Option.some.injEq] at h; subst h; exact ⟨rfl, rfl⟩
  | s :: ss, p, q, h => by
    simp only [addTypes, addType, Option.bind_eq_some_iff, Option.map_eq_some_iff] at h
    obtain ⟨r, ⟨t, _, rfl⟩, h⟩ := h
    have := addTypes_functions exported decls k ss _ q h
    exact this

/-- The results one by one, with what is found for each. -/
theorem resultNames_spec (exported : Bytes → Bool) (f : Expr → Option Ty) (e : Expr) : ∀ (ns : List Bytes) (fn fn' : Function),
    resultNames exported f e ns fn = some fn' → ∃ ts : List Ty, ts.length = ns.length ∧
      (∀ (i : Nat) n, ns[i]? = some n → ∃ t, f e = some t ∧ ts[i]? = some { t with name := n, exported := exported n }) ∧
      fn'.name = fn.name ∧ fn'.param = fn.param ∧
      fn'.result = (ts.reverse.find? (fun t => decide (t.typ ≠ bs "error"))).or fn.result ∧
      fn'.err = (ts.reverse.find? (fun t => decide (t.typ = bs "error"))).or fn.err
  | [], fn, fn', h => by
    simp only [resultNames, Option.some.injEq] at h
    subst h
    exact ⟨[], by simp⟩
  | n :: ns, fn, fn', h => by
    simp only [resultNames, Option.bind_eq_some_iff] at h
    obtain ⟨t, ht, h⟩ := h
    obtain ⟨ts, h1, h2, h3, h4, h5, h6⟩ := resultNames_spec exported f e ns _ fn' h
    refine ⟨{ t with name := n, exported := exported n } :: ts, by simp [h1], fun i m hm => ?_, ?_, ?_, ?_, ?_⟩
    · cases i with
      | zero =>
        have : n = m := by simpa using hm
        subst this
        exact ⟨t, ht, rfl⟩
      | succ i => exact h2 i m (by simpa using hm)
    · rw [h3]; split <;> rfl
    · rw [h4]; split <;> rfl
    · rw [h5, List.reverse_cons, List.find?_append]
      by_cases he : t.typ = bs "error" <;> simp [he, Option.or_assoc]
    · rw [h6, List.reverse_cons, List.find?_append]
      by_cases he : t.typ = bs "error" <;> simp [he, Option.or_assoc]

theorem results_spec (exported : Bytes → Bool) (f : Expr → Option Ty) : ∀ (rs : List (List Bytes × Expr)) (fn fn' : Function),
    results exported f rs fn = some fn' → ∃ ts : List Ty, ts.length = (flat rs).length ∧
      (∀ (i : Nat) n e, (flat rs)[i]? = some (n, e) → ∃ t, f e = some t ∧ ts[i]? = some { t with name := n, exported := exported n }) ∧
      fn'.name = fn.name ∧ fn'.param = fn.param ∧
      fn'.result = (ts.reverse.find? (fun t => decide (t.typ ≠ bs "error"))).or fn.result ∧
      fn'.err = (ts.reverse.find? (fun t => decide (t.typ = bs "error"))).or fn.err
  | [], fn, fn', h => by
    simp only [results, Option.some.injEq] at h
    subst h
    exact ⟨[], by simp [flat]⟩
  | (ns, x) :: rs, fn, fn', h => by
    simp only [results, Option.bind_eq_some_iff] at h
    obtain ⟨fm, hm, h⟩ := h
    obtain ⟨ts, a1, a2, a3, a4, a5, a6⟩ := resultNames_spec exported f x ns fn fm hm
    obtain ⟨us, h1, h2, h3, h4, h5, h6⟩ := results_spec exported f rs fm fn' h
    have hf : flat ((ns, x) :: rs) = (ns.map fun n => (n, x)) ++ flat rs := rfl
    rw [hf]
    refine ⟨ts ++ us, by simp [a1, h1], fun i n e hi => ?_, h3.trans a3, h4.trans a4, ?_, ?_⟩
    · by_cases hl : i < ns.length
      · rw [List.getElem?_append_left (by simpa using hl), List.getElem?_map, Option.map_eq_some_iff] at hi
        obtain ⟨m, hm, he⟩ := hi
        obtain ⟨rfl, rfl⟩ : m = n ∧ x = e := by simpa using he
        rw [List.getElem?_append_left (by omega)]
        exact a2 i m hm
      · rw [List.getElem?_append_right (by simp; omega), List.length_map] at hi
        rw [List.getElem?_append_right (by omega), a1]
        exact h2 _ n e hi
    · rw [h5, a5, List.reverse_append, List.find?_append, Option.or_assoc]
    · rw [h6, a6, List.reverse_append, List.find?_append, Option.or_assoc]

theorem addFunc_spec (exported : Bytes → Bool) (decls : List Expr) (k : Nat) (p q : Package) (d : FuncDecl)
    (h : addFunc exported decls k p d = some q) :
    (¬ IsService exported d → q = p) ∧
      (IsService exported d → ∃ fn, q = { p with functions := set p.functions d.name fn } ∧ Records exported (parseType decls p.imports k) d fn) := by
  unfold addFunc at h
  split at h
  · rename_i hx
    cases h
    exact ⟨fun _ => rfl, fun hs => by simp [IsService, hx] at hs⟩
  · rename_i hx
    split at h
    · rename_i ns e g hp
      rw [Option.bind_eq_some_iff] at h
      obtain ⟨t, ht, h⟩ := h
      split at h
      · cases h
      · rename_i n ns
        rw [Option.map_eq_some_iff] at h
        obtain ⟨fn, hf, rfl⟩ := h
        refine ⟨fun hs => absurd ⟨by simpa using hx, by simp [hp]⟩ hs, fun _ => ⟨fn, rfl, ?_⟩⟩
        obtain ⟨ts, h1, h2, h3, h4, h5, h6⟩ := results_spec exported _ _ _ _ hf
        refine ⟨h3, ⟨n, ns, e, t, by rw [hp]; rfl, ht, h4⟩, ts, h1, h2, ?_, ?_⟩
        · rw [h5, Option.or_none]
        · rw [h6, Option.or_none]
    · rename_i hp
      cases h
      refine ⟨fun _ => rfl, fun hs => ?_⟩
      obtain ⟨_, hl⟩ := hs
      match hpp : d.params, hl with
      | [(a, b), c], _ => exact absurd hpp (hp a b c)

theorem addDecls_functions (exported : Bytes → Bool) (decls : List Expr) (k : Nat) (n : Bytes) : ∀ (ds : List Decl) (p p' : Package),
    addDecls exported decls k ds p = some p' →
    ((∀ d, .func d ∈ ds → IsService exported d → d.name ≠ n) → p'.functions n = p.functions n) ∧
    (∀ ds1 d ds2, ds = ds1 ++ .func d :: ds2 → IsService exported d → d.name = n →
      (∀ d', .func d' ∈ ds2 → IsService exported d' → d'.name ≠ n) →
      ∃ fn, p'.functions n = some fn ∧ Records exported (parseType decls p.imports k) d fn)
  | [], p, p', h => by
    simp only [addDecls, Option.some.injEq] at h
    subst h
    refine ⟨fun _ => rfl, fun ds1 d ds2 he => ?_⟩
    simp at he
  | .types ss :: ds, p, p', h => by
    simp only [addDecls, Option.bind_eq_some_iff] at h
    obtain ⟨q, hq, h⟩ := h
    have hf := addTypes_functions exported decls k ss p q hq
    obtain ⟨i1, i2⟩ := addDecls_functions exported decls k n ds q p' h
    rw [hf.1, hf.2] at *
    refine ⟨fun hx => i1 fun d hd => hx d (by simp [hd]), fun ds1 d ds2 he => ?_⟩
    cases ds1 with
    | nil => simp at he
    | cons x ds1 => exact i2 ds1 d ds2 (by simpa using (List.cons.inj he).2)
  | .value :: ds, p, p', h => by
    obtain ⟨i1, i2⟩ := addDecls_functions exported decls k n ds p p' (by simpa only [addDecls] using h)
    refine ⟨fun hx => i1 fun d hd => hx d (by simp [hd]), fun ds1 d ds2 he => ?_⟩
    cases ds1 with
    | nil => simp at he
    | cons x ds1 => exact i2 ds1 d ds2 (by simpa using (List.cons.inj he).2)
  | .func d0 :: ds, p, p', h => by
    simp only [addDecls, Option.bind_eq_some_iff] at h
    obtain ⟨q, hq, h⟩ := h
    obtain ⟨f1, f2⟩ := addFunc_spec exported decls k p q d0 hq
    obtain ⟨i1, i2⟩ := addDecls_functions exported decls k n ds q p' h
    have hqi : q.imports = p.imports := by
      by_cases hs : IsService exported d0
      · obtain ⟨fn, hf, _⟩ := f2 hs; rw [hf]
      · rw [f1 hs]
    rw [hqi] at i2
    refine ⟨fun hx => ?_, fun ds1 d ds2 he hs hn hl => ?_⟩
    · rw [i1 fun d hd => hx d (by simp [hd])]
      by_cases hs : IsService exported d0
      · obtain ⟨fn, hf, _⟩ := f2 hs
        rw [hf]
        simp only [set]
        rw [if_neg]
        exact fun g => hx d0 (by simp) hs g.symm
      · rw [f1 hs]
    · cases ds1 with
      | nil =>
        obtain ⟨e1, rfl⟩ := List.cons.inj he
        have : d0 = d := by simpa using e1
        subst this
        obtain ⟨fn, hf, hr⟩ := f2 hs
        refine ⟨fn, ?_, hr⟩
        rw [i1 hl, hf]
        simp [set, hn]
      | cons x ds1 => exact i2 ds1 d ds2 (List.cons.inj he).2 hs hn hl

theorem typeSpecs_declared : ∀ ds : List Decl, typeSpecs ds = (declared ds).map (·.2)
  | [] => rfl
  | .types ss :: ds => by simp [typeSpecs, declared, typeSpecs_declared ds]
  | .value :: ds => by simp [typeSpecs, declared, typeSpecs_declared ds]
  | .func _ :: ds => by simp [typeSpecs, declared, typeSpecs_declared ds]

/-- Declarations of types, one after the other. -/
theorem addTypes_spec (exported : Bytes → Bool) (decls : List Expr) (k : Nat) (n : Bytes) : ∀ (ss : List (Bytes × Expr)) (p q : Package),
    addTypes exported decls k ss p = some q → q.imports = p.imports ∧ (∀ s ∈ ss, ∃ t, parseType decls p.imports k s.2 = some t) ∧
      (n ∉ ss.map (·.1) → q.types n = p.types n) ∧
      (∀ l1 e l2, ss = l1 ++ (n, e) :: l2 → n ∉ l2.map (·.1) →
        ∃ t, parseType decls p.imports k e = some t ∧ q.types n = some { t with name := n, exported := exported n })
  | [], p, q, h => by
    simp only [addTypes, Option.some.injEq] at h; subst h
    exact ⟨rfl, by simp, fun _ => rfl, fun l1 e l2 he => by simp at he⟩
  | s :: ss, p, q, h => by
    simp only [addTypes, addType, Option.bind_eq_some_iff, Option.map_eq_some_iff] at h
    obtain ⟨r, ⟨t, ht, hr⟩, h⟩ := h
    have hri : r.imports = p.imports := by rw [← hr]
    obtain ⟨i0, i1, i2, i3⟩ := addTypes_spec exported decls k n ss r q h
    rw [hri] at i0 i1 i3
    refine ⟨i0, fun x hx => ?_, fun hn => ?_, fun l1 e l2 he hn => ?_⟩
    · rcases List.mem_cons.1 hx with rfl | hx
      · exact ⟨t, ht⟩
      · exact i1 x hx
    · rw [List.map_cons, List.mem_cons, not_or] at hn
      rw [i2 hn.2, ← hr]
      show set _ _ _ _ = _
      rw [set, if_neg hn.1]
    · cases l1 with
      | nil =>
        obtain ⟨rfl, rfl⟩ := List.cons.inj he
        refine ⟨t, ht, ?_⟩
        rw [i2 hn, ← hr]
        show set _ _ _ _ = _
        rw [set, if_pos rfl]
      | cons x l1 => exact i3 l1 e l2 (List.cons.inj he).2 hn

theorem addFunc_types (exported : Bytes → Bool) (decls : List Expr) (k : Nat) (p q : Package) (d : FuncDecl)
    (h : addFunc exported decls k p d = some q) : q.types = p.types ∧ q.imports = p.imports := by
  obtain ⟨f1, f2⟩ := addFunc_spec exported decls k p q d h
  by_cases hs : IsService exported d
  · obtain ⟨fn, rfl, _⟩ := f2 hs; exact ⟨rfl, rfl⟩
  · rw [f1 hs]; exact ⟨rfl, rfl⟩

theorem addDecls_declared (exported : Bytes → Bool) (decls : List Expr) (k : Nat) : ∀ (ds : List Decl) (p p' : Package),
    addDecls exported decls k ds p = some p' → ∀ T e, (T, e) ∈ declared ds → ∃ t, parseType decls p.imports k e = some t
  | [], _, _, _, _, _, h => by simp [declared] at h
  | .types ss :: ds, p, p', h, T, e, hm => by
    simp only [addDecls, Option.bind_eq_some_iff] at h
    obtain ⟨q, hq, h⟩ := h
    obtain ⟨i0, i1, _⟩ := addTypes_spec exported decls k [] ss p q hq
    simp only [declared, List.mem_append] at hm
    rcases hm with hm | hm
    · exact i1 _ hm
    · rw [← i0]; exact addDecls_declared exported decls k ds q p' h T e hm
  | .value :: ds, p, p', h, T, e, hm => addDecls_declared exported decls k ds p p' (by simpa only [addDecls] using h) T e hm
  | .func d :: ds, p, p', h, T, e, hm => by
    simp only [addDecls, Option.bind_eq_some_iff] at h
    obtain ⟨q, hq, h⟩ := h
    rw [← (addFunc_types exported decls k p q d hq).2]
    exact addDecls_declared exported decls k ds q p' h T e hm

theorem addDecls_types (exported : Bytes → Bool) (decls : List Expr) (k : Nat) (n : Bytes) : ∀ (ds : List Decl) (p p' : Package),
    addDecls exported decls k ds p = some p' →
    (n ∉ (declared ds).map (·.1) → p'.types n = p.types n) ∧
    (∀ l1 e l2, declared ds = l1 ++ (n, e) :: l2 → n ∉ l2.map (·.1) →
      ∃ t, parseType decls p.imports k e = some t ∧ p'.types n = some { t with name := n, exported := exported n })
  | [], p, p', h => by
    simp only [addDecls, Option.some.injEq] at h; subst h
    exact ⟨fun _ => rfl, fun l1 e l2 he => by simp [declared] at he⟩
  | .types ss :: ds, p, p', h => by
    simp only [addDecls, Option.bind_eq_some_iff] at h
    obtain ⟨q, hq, h⟩ := h
    obtain ⟨a0, _, a2, a3⟩ := addTypes_spec exported decls k n ss p q hq
    obtain ⟨i1, i2⟩ := addDecls_types exported decls k n ds q p' h
    rw [a0] at i2
    simp only [declared]
    refine ⟨fun hn => ?_, fun l1 e l2 he hn => ?_⟩
    · rw [List.map_append, List.mem_append, not_or] at hn
      rw [i1 hn.2, a2 hn.1]
    · rw [List.append_eq_append_iff] at he
      rcases he with ⟨x, rfl, he⟩ | ⟨x, hx, he⟩
      · exact i2 x e l2 he hn
      · cases x with
        | nil =>
          exact i2 [] e l2 (by simpa using he.symm) hn
        | cons y x =>
          obtain ⟨rfl, rfl⟩ := List.cons.inj he
          have hn : n ∉ (x ++ declared ds).map (·.1) := hn
          rw [List.map_append, List.mem_append, not_or] at hn
          obtain ⟨t, ht, hy⟩ := a3 l1 e x hx hn.1
          exact ⟨t, ht, by rw [i1 hn.2, hy]⟩
  | .value :: ds, p, p', h => addDecls_types exported decls k n ds p p' (by simpa only [addDecls] using h)
  | .func d :: ds, p, p', h => by
    simp only [addDecls, Option.bind_eq_some_iff] at h
    obtain ⟨q, hq, h⟩ := h
    have := addFunc_types exported decls k p q d hq
    have i := addDecls_types exported decls k n ds q p' h
    rw [this.1, this.2] at i
    exact i

theorem addDecls_files (exported : Bytes → Bool) (decls : List Expr) (k : Nat) : ∀ (ds : List Decl) (p : Package) (f : Bytes → Option Bytes),
    addDecls exported decls k ds { p with files := f } = (addDecls exported decls k ds p).map fun p => { p with files := f }
  | [], p, f => rfl
  | .types ss :: ds, p, f => by
    have ht : ∀ (ss : List (Bytes × Expr)) (p : Package), addTypes exported decls k ss { p with files := f } =
        (addTypes exported decls k ss p).map fun p => { p with files := f } := by
      intro ss
      induction ss with
      | nil => intro p; rfl
      | cons s ss ih =>
        intro p
        simp only [addTypes, addType]
        cases parseType decls p.imports k s.2 with
        | none => rfl
        | some t => exact ih { p with types := set p.types s.1 { t with name := s.1, exported := exported s.1 } }
    simp only [addDecls, ht]
    cases addTypes exported decls k ss p with
    | none => rfl
    | some q => exact addDecls_files exported decls k ds q f
  | .value :: ds, p, f => addDecls_files exported decls k ds p f
  | .func d :: ds, p, f => by
    have hfn : addFunc exported decls k { p with files := f } d = (addFunc exported decls k p d).map fun p => { p with files := f } := by
      simp only [addFunc]
      split
      · rfl
      · split
        · cases parseType decls p.imports k _ with
          | none => rfl
          | some t =>
            simp only [Option.bind_some]
            split
            · rfl
            · simp only [Option.map_map]; rfl
        · rfl
    simp only [addDecls, hfn]
    cases addFunc exported decls k p d with
    | none => rfl
    | some q => exact addDecls_files exported decls k ds q f

/-- Every file name satisfies the test of line 49. -/
theorem cond_true (name : Bytes) : (bs ".go").isSuffixOf name = true ∨ (bs "_test.go").isSuffixOf name = false := by
  by_cases h : (bs "_test.go").isSuffixOf name = true
  · left
    rw [List.isSuffixOf_iff_suffix] at h ⊢
    exact List.IsSuffix.trans ⟨bs "_test", by decide⟩ h
  · right; exact Bool.eq_false_iff.2 h

/-- C135: after a file is parsed, a function is known under a name exactly as the last service of that name in the file has it: with its first
parameter and, of its named results, the last error and the last other one. Names that are no services of the file are as they were. -/
theorem C135_functions (exported : Bytes → Bool) (std : Bytes → Option Ast) (k : Nat) (p p' : Package) (name data : Bytes) (a : Ast)
    (ha : std data = some a) (h : p.parse exported std k name data = some (p', false)) (n : Bytes) :
    ((∀ d, .func d ∈ a.decls → IsService exported d → d.name ≠ n) → p'.functions n = p.functions n) ∧
    (∀ ds1 d ds2, a.decls = ds1 ++ .func d :: ds2 → IsService exported d → d.name = n →
      (∀ d', .func d' ∈ ds2 → IsService exported d' → d'.name ≠ n) →
      ∃ fn, p'.functions n = some fn ∧ Records exported (parseType (typeSpecs a.decls) p'.imports k) d fn) := by
  simp only [Package.parse] at h
  rw [if_pos (cond_true name), ha] at h
  simp only [Option.map_eq_some_iff, parseFile] at h
  obtain ⟨q, hq, he⟩ := h
  obtain ⟨rfl, -⟩ : q = p' ∧ True := by simpa using he
  have hi := (imports_addDecls exported _ k _ _ _ hq).1
  obtain ⟨h1, h2⟩ := addDecls_functions exported _ k n _ _ _ hq
  have hf : ∀ (l : List (Option Bytes × Bytes)) (p : Package), (l.foldl addImport p).functions = p.functions := by
    intro l
    induction l with
    | nil => intro p; rfl
    | cons i l ih => intro p; rw [List.foldl_cons, ih]; unfold addImport; split <;> rfl
  rw [hf] at h1
  rw [hi]
  exact ⟨h1, h2⟩

/-- C135: after a file is parsed, a type is known under a name exactly as the last declaration of that name in the file has it; other names are as
they were. -/
theorem C135_types (exported : Bytes → Bool) (std : Bytes → Option Ast) (k : Nat) (p p' : Package) (name data : Bytes) (a : Ast)
    (ha : std data = some a) (h : p.parse exported std k name data = some (p', false)) (n : Bytes) :
    (n ∉ (declared a.decls).map (·.1) → p'.types n = p.types n) ∧
    (∀ l1 e l2, declared a.decls = l1 ++ (n, e) :: l2 → n ∉ l2.map (·.1) →
      ∃ t, parseType (typeSpecs a.decls) p'.imports k e = some t ∧ p'.types n = some { t with name := n, exported := exported n }) := by
  simp only [Package.parse] at h
  rw [if_pos (cond_true name), ha] at h
  simp only [Option.map_eq_some_iff, parseFile] at h
  obtain ⟨q, hq, he⟩ := h
  obtain ⟨rfl, -⟩ : q = p' ∧ True := by simpa using he
  have hi := (imports_addDecls exported _ k _ _ _ hq).1
  have hf : ∀ (l : List (Option Bytes × Bytes)) (p : Package), (l.foldl addImport p).types = p.types := by
    intro l
    induction l with
    | nil => intro p; rfl
    | cons i l ih => intro p; rw [List.foldl_cons, ih]; unfold addImport; split <;> rfl
  rw [hi]
  obtain ⟨h1, h2⟩ := addDecls_types exported _ k n _ _ _ hq
  rw [hf] at h1
  exact ⟨h1, h2⟩

/-- C135: an import is known under its given name, or the last part of its path, and the last import of a name is what the types of the file are
looked up with. -/
theorem C135_imports (exported : Bytes → Bool) (std : Bytes → Option Ast) (k : Nat) (p p' : Package) (name data : Bytes) (a : Ast)
    (ha : std data = some a) (h : p.parse exported std k name data = some (p', false)) (n : Bytes) :
    (n ∉ a.imports.map (fun i => i.1.getD (pathBase i.2)) → p'.imports n = p.imports n) ∧
    (∀ l1 g path l2, a.imports = l1 ++ (g, path) :: l2 → g.getD (pathBase path) = n → n ∉ l2.map (fun i => i.1.getD (pathBase i.2)) →
      p'.imports n = some (pathBase path, path)) := by
  simp only [Package.parse] at h
  rw [if_pos (cond_true name), ha] at h
  simp only [Option.map_eq_some_iff, parseFile] at h
  obtain ⟨q, hq, he⟩ := h
  obtain ⟨rfl, -⟩ : q = p' ∧ True := by simpa using he
  rw [(imports_addDecls exported _ k _ _ _ hq).1]
  have one : ∀ (p : Package) (i : Option Bytes × Bytes),
      (addImport p i).imports = set p.imports (i.1.getD (pathBase i.2)) (pathBase i.2, i.2) := by
    intro p i
    obtain ⟨g, path⟩ := i
    cases g <;> rfl
  have key : ∀ (l : List (Option Bytes × Bytes)) (p : Package),
      (n ∉ l.map (fun i => i.1.getD (pathBase i.2)) → (l.foldl addImport p).imports n = p.imports n) ∧
      (∀ l1 g path l2, l = l1 ++ (g, path) :: l2 → g.getD (pathBase path) = n → n ∉ l2.map (fun i => i.1.getD (pathBase i.2)) →
        (l.foldl addImport p).imports n = some (pathBase path, path)) := by
    intro l
    induction l with
    | nil => intro p; exact ⟨fun _ => rfl, fun l1 g path l2 he => by simp at he⟩
    | cons i l ih =>
      intro p
      rw [List.foldl_cons]
      obtain ⟨i1, i2⟩ := ih (addImport p i)
      refine ⟨fun hn => ?_, fun l1 g path l2 he hg hn => ?_⟩
      · rw [List.map_cons, List.mem_cons, not_or] at hn
        rw [i1 hn.2, one, set, if_neg hn.1]
      · cases l1 with
        | nil =>
          obtain ⟨rfl, rfl⟩ := List.cons.inj he
          rw [i1 hn, one, set, if_pos hg.symm]
        | cons x l1 => exact i2 l1 g path l2 (List.cons.inj he).2 hg hn
  exact key a.imports _

/-- C135: a file that is no Go source gives an error and leaves everything but the list of files as it was; any file is kept. -/
theorem C135_error (exported : Bytes → Bool) (std : Bytes → Option Ast) (k : Nat) (p : Package) (name data : Bytes) (hs : std data = none) :
    ∃ p', p.parse exported std k name data = some (p', true) ∧ p'.files name = some data ∧ (∀ m, m ≠ name → p'.files m = p.files m) ∧
      p'.name = p.name ∧ p'.imports = p.imports ∧ p'.functions = p.functions ∧ p'.types = p.types := by
  simp only [Package.parse]
  rw [if_pos (cond_true name), hs]
  exact ⟨_, rfl, by simp [set], fun m hm => by simp [set, hm], rfl, rfl, rfl, rfl⟩

/-! ## C135: where the code is wrong -/

/-- C228 violated: test files are not left out, and neither are files that are no Go source by their name. The name makes no difference at all to
what is taken from a file. -/
theorem C228_test_files_violated (exported : Bytes → Bool) (std : Bytes → Option Ast) (k : Nat) (p : Package) (name data : Bytes) :
    (p.parse exported std k name data).map (fun r => (r.1.functions, r.1.types, r.1.imports, r.1.name, r.2)) =
      (p.parse exported std k (bs "service.go") data).map (fun r => (r.1.functions, r.1.types, r.1.imports, r.1.name, r.2)) := by
  simp only [Package.parse]
  rw [if_pos (cond_true name), if_pos (cond_true _)]
  cases hs : std data with
  | none => rfl
  | some a =>
    simp only [parseFile]
    have hf : ∀ (l : List (Option Bytes × Bytes)) (p : Package) (f : Bytes → Option Bytes),
        l.foldl addImport { p with files := f } = { l.foldl addImport p with files := f } := by
      intro l
      induction l with
      | nil => intro p f; rfl
      | cons i l ih =>
        intro p f
        rw [List.foldl_cons, List.foldl_cons, ← ih]
        congr 1
        unfold addImport; split <;> rfl
    have hd := addDecls_files exported (typeSpecs a.decls) k a.decls
    have e1 := hf a.imports { p with name := a.package } (set p.files name data)
    have e2 := hf a.imports { p with name := a.package } (set p.files (bs "service.go") data)
    simp only at e1 e2
    rw [e1, e2]
    generalize a.imports.foldl addImport { p with name := a.package } = q
    have d1 := hd q (set p.files name data)
    have d2 := hd q (set p.files (bs "service.go") data)
    rw [d1, d2]
    cases addDecls exported (typeSpecs a.decls) k a.decls q <;> rfl

/-- C228 violated: a type with a field that points to a type of its own kind, such as a list, is looked up without end: no file that declares one
is ever parsed. -/
theorem C228_recursive_violated (exported : Bytes → Bool) (std : Bytes → Option Ast) (p : Package) (name data : Bytes) (a : Ast)
    (ha : std data = some a) (i : Nat) (T m : Bytes) (fs : List (List Bytes × Expr)) (hi : (declared a.decls)[i]? = some (T, .struct fs))
    (hm : (m, .star (.ident T (some i))) ∈ flat fs) (k : Nat) : p.parse exported std k name data = none := by
  have hs : (typeSpecs a.decls)[i]? = some (.struct fs) := by rw [typeSpecs_declared, List.getElem?_map, hi]; rfl
  have hnone : ∀ im k t, parseType (typeSpecs a.decls) im k (.struct fs) ≠ some t := by
    intro im k
    induction k using Nat.strongRecOn with
    | ind k ih =>
      intro t ht
      cases k with
      | zero => simp [parseType] at ht
      | succ k =>
        obtain ⟨j, hj⟩ := List.getElem?_of_mem hm
        obtain ⟨te, hte, -⟩ := (C135_fields _ im k fs t ht).2.2.2 j m _ hj
        cases k with
        | zero => simp [parseType] at hte
        | succ k =>
          rw [parseType, Option.map_eq_some_iff] at hte
          obtain ⟨s, hs', -⟩ := hte
          cases k with
          | zero => simp [parseType] at hs'
          | succ k =>
            rw [parseType] at hs'
            simp only [Option.bind_some, hs, Option.map_eq_some_iff] at hs'
            obtain ⟨u, hu, -⟩ := hs'
            exact ih k (by omega) u hu
  simp only [Package.parse]
  rw [if_pos (cond_true name), ha]
  simp only [Option.map_eq_none_iff, parseFile]
  cases hx : addDecls exported (typeSpecs a.decls) k a.decls (a.imports.foldl addImport { p with files := set p.files name data, name := a.package }) with
  | none => rfl
  | some q =>
    obtain ⟨t, ht⟩ := addDecls_declared exported _ k _ _ _ hx T _ (List.mem_of_getElem? hi)
    exact absurd ht (hnone _ k t)

/-- C228 violated: an exported function with two parameters without names makes the parser panic, so no file with one is ever parsed. -/
theorem C228_unnamed_violated (exported : Bytes → Bool) (std : Bytes → Option Ast) (p : Package) (name data : Bytes) (a : Ast)
    (ha : std data = some a) (d : FuncDecl) (hd : .func d ∈ a.decls) (hx : exported d.name = true) (e : Expr) (g : List Bytes × Expr)
    (hp : d.params = [([], e), g]) (k : Nat) : p.parse exported std k name data = none := by
  simp only [Package.parse]
  rw [if_pos (cond_true name), ha]
  simp only [Option.map_eq_none_iff, parseFile]
  generalize a.imports.foldl addImport { p with files := set p.files name data, name := a.package } = q
  generalize typeSpecs a.decls = decls
  generalize a.decls = ds at hd
  induction ds generalizing q with
  | nil => simp at hd
  | cons x ds ih =>
    cases x with
    | value => exact ih q (by simpa using hd)
    | types ss =>
      simp only [addDecls]
      cases addTypes exported decls k ss q with
      | none => rfl
      | some q' => exact ih q' (by simpa using hd)
    | func d' =>
      simp only [addDecls]
      cases hf : addFunc exported decls k q d' with
      | none => rfl
      | some q' =>
        rcases List.mem_cons.1 hd with h | h
        · have : d = d' := by simpa using h
          subst this
          simp only [addFunc, hx, hp] at hf
          rw [if_neg (by simp)] at hf
          cases hz : parseType decls q.imports k e <;> simp [hz] at hf
        · exact ih q' h

/-- C228 violated: parameters are counted by their groups. A function of two parameters written `(a, b T)` is not taken for a service, and one of
three written `(a, b T, c U)` is, as if `b` were not there. -/
theorem C228_groups_violated (exported : Bytes → Bool) (decls : List Expr) (k : Nat) (p : Package) (r : Bool) (f a b c : Bytes) (T U : Expr)
    (res : Option (List (List Bytes × Expr))) :
    addFunc exported decls k p ⟨r, f, [([a, b], T)], res⟩ = some p ∧
    ((flat [([a, b], T), ([c], U)]).length = 3 ∧ addFunc exported decls k p ⟨r, f, [([a, b], T), ([c], U)], res⟩ =
      addFunc exported decls k p ⟨r, f, [([a], T), ([c], U)], res⟩) := by
  refine ⟨?_, rfl, rfl⟩
  unfold addFunc
  split <;> rfl

/-- C228 violated: results without names are not seen. Of a service `F(a A, b B) (T, error)` neither the result nor the error is recorded. -/
theorem C228_results_violated (exported : Bytes → Bool) (decls : List Expr) (k : Nat) (p q : Package) (d : FuncDecl) (hs : IsService exported d)
    (hr : ∀ g ∈ d.results.getD [], g.1 = []) (h : addFunc exported decls k p d = some q) :
    ∃ fn, q.functions d.name = some fn ∧ fn.result = none ∧ fn.err = none := by
  obtain ⟨fn, rfl, -, -, ts, h1, -, h3, h4⟩ := (addFunc_spec exported decls k p q d h).2 hs
  have : flat (d.results.getD []) = [] := by
    rw [flat, List.flatMap_eq_nil_iff]
    intro x hx
    rw [hr x hx]; rfl
  rw [this] at h1
  have : ts = [] := List.length_eq_zero_iff.1 (by simpa using h1)
  subst this
  exact ⟨fn, by simp [set], by simpa using h3, by simpa using h4⟩

/-- C228 violated: methods are taken for functions. A method of the name of a service that stands behind it in the file replaces the service. -/
theorem C228_methods_violated (exported : Bytes → Bool) (std : Bytes → Option Ast) (k : Nat) (p p' : Package) (name data : Bytes) (a : Ast)
    (ha : std data = some a) (h : p.parse exported std k name data = some (p', false)) (d m : FuncDecl) (_hd : d.recv = false) (_hm : m.recv = true)
    (hn : m.name = d.name) (hs : IsService exported m) (hl : a.decls = [.func d, .func m]) :
    ∃ fn, p'.functions d.name = some fn ∧ Records exported (parseType [] p'.imports k) m fn := by
  obtain ⟨fn, h1, h2⟩ := (C135_functions exported std k p p' name data a ha h d.name).2 [.func d] m [] hl hs hn (by simp)
  refine ⟨fn, h1, ?_⟩
  rw [hl] at h2
  exact h2

/-! ## Examples -/

namespace Example

/-- `package s; import t "x/time"; type Req struct { A, B int; T t.Time }; func Do(req *Req, st int) (res Req, err error)` -/
def req : Expr := .struct [([bs "A", bs "B"], .ident (bs "int") none), ([bs "T"], .sel (bs "t") (bs "Time"))]
def doIt : FuncDecl :=
  ⟨false, bs "Do", [([bs "req"], .star (.ident (bs "Req") (some 0))), ([bs "st"], .ident (bs "int") none)],
    some [([bs "res"], .ident (bs "Req") (some 0)), ([bs "err"], .ident (bs "error") none)]⟩
def file : Ast := ⟨bs "s", [(some (bs "t"), bs "x/time")], [.types [(bs "Req", req)], .value, .func doIt]⟩
def p0 : Package := ⟨[], fun _ => none, fun _ => none, fun _ => none, fun _ => none⟩
def upper (n : Bytes) : Bool := match n with | c :: _ => decide (ch 'A' ≤ c ∧ c ≤ ch 'Z') | [] => false

example : IsService upper doIt := ⟨by decide, rfl⟩
example : ((p0.parse upper (fun _ => some file) 5 (bs "a.go") []).bind fun r => (r.1.functions (bs "Do")).bind (·.param)).map
    (fun t => (t.name, t.typ, t.pointer, t.inner.map (fun i => (i.name, i.id, i.typ, i.package)))) =
      some (bs "req", bs "Req", true, [(bs "A", 0, bs "int", none), (bs "B", 1, bs "int", none), (bs "T", 2, bs "Time", some (bs "time", bs "x/time"))]) := by
  rfl
example : ((p0.parse upper (fun _ => some file) 5 (bs "a.go") []).bind fun r => (r.1.functions (bs "Do")).bind (·.err)).map (·.name) = some (bs "err") := by
  decide +kernel
/-- `type List struct { next *List }` -/
def rec : Ast := ⟨bs "s", [], [.types [(bs "List", .struct [([bs "next"], .star (.ident (bs "List") (some 0)))])]]⟩
example (k : Nat) : p0.parse upper (fun _ => some rec) k (bs "a.go") [] = none :=
  C228_recursive_violated upper _ p0 _ _ rec rfl 0 (bs "List") (bs "next") _ rfl (by simp [flat]) k

/-- What `file` is parsed to. -/
def parsed : Package := ((p0.parse upper (fun _ => some file) 5 (bs "a.go") []).getD (p0, true)).1
theorem parsed_eq : p0.parse upper (fun _ => some file) 5 (bs "a.go") [] = some (parsed, false) := rfl

example := C135_fields (typeSpecs file.decls) parsed.imports 4 [([bs "A", bs "B"], .ident (bs "int") none), ([bs "T"], .sel (bs "t") (bs "Time"))] _ rfl
example := C135_functions upper (fun _ => some file) 5 p0 parsed (bs "a.go") [] file rfl parsed_eq (bs "Do")
example := C135_types upper (fun _ => some file) 5 p0 parsed (bs "a.go") [] file rfl parsed_eq (bs "Req")
example := C135_imports upper (fun _ => some file) 5 p0 parsed (bs "a.go") [] file rfl parsed_eq (bs "t")
example := C135_error upper (fun _ => none) 5 p0 (bs "a.go") (bs "pack age") rfl
/-- `func Do(Req, int)` -/
def unnamed : FuncDecl := ⟨false, bs "Do", [([], .ident (bs "Req") (some 0)), ([], .ident (bs "int") none)], none⟩
example := C228_unnamed_violated upper (fun _ => some ⟨bs "s", [], [.func unnamed]⟩) p0 (bs "a.go") [] _ rfl unnamed (by simp) (by decide) _ _ rfl 5
/-- `func Do(a int, b int) (int, error)` -/
def unnamedResults : FuncDecl := ⟨false, bs "Do", [([bs "a"], .ident (bs "int") none), ([bs "b"], .ident (bs "int") none)],
  some [([], .ident (bs "int") none), ([], .ident (bs "error") none)]⟩
example := C228_results_violated upper [] 5 p0 _ unnamedResults ⟨by decide, rfl⟩ (by simp [unnamedResults]) rfl

end Example

end Memar.GoParser
