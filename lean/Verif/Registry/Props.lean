import Verif.Registry.Lemmas

/-!
# C41, C42, C78, C79: registries and error values, for all histories
-/

namespace Memar.Registry
open Memar

variable {α : Type}

/-! ## C41: the error registry -/
namespace Errors

/-- What a call does to the slot of identifier `k`. -/
def onID (K : Keys α) (k : BitVec 64) : Op α → Option (Option α)
  | .register x => if K.id x = k then some (some x) else none
  | .remove x => if K.id x = k then some none else none

/-- What a call does to the slot of text `t`. -/
def onText (K : Keys α) (t : Bytes) : Op α → Option (Option α)
  | .register x => if K.text x = t then some (some x) else none
  | .remove x => if K.text x = t then some none else none

theorem run_concat (K : Keys α) (dev : Bool) (h : List (Op α)) (op : Op α) :
    run K dev (h ++ [op]) = step K dev (run K dev h) op := by
  simp [run, List.foldl_append]

theorem prod_byID (K : Keys α) (h : List (Op α)) (k : BitVec 64) :
    (run K false h).byID k = lastWins (onID K k) h := by
  induction h using history_induction with
  | nil => rfl
  | concat h op ih =>
    rw [run_concat, lastWins_concat]
    cases op with
    | register x =>
      by_cases hk : K.id x = k
      · simp [step, register, onID, hk, put]
      · simp [step, register, onID, hk, put, Ne.symm hk, ih]
    | remove x =>
      by_cases hk : K.id x = k
      · simp [step, unRegister, onID, hk, del]
      · simp [step, unRegister, onID, hk, del, Ne.symm hk, ih]

theorem prod_byText (K : Keys α) (h : List (Op α)) (t : Bytes) :
    (run K false h).byMediaType t = lastWins (onText K t) h := by
  induction h using history_induction with
  | nil => rfl
  | concat h op ih =>
    rw [run_concat, lastWins_concat]
    cases op with
    | register x =>
      by_cases hk : K.text x = t
      · simp [step, register, onText, hk, put]
      · simp [step, register, onText, hk, put, Ne.symm hk, ih]
    | remove x =>
      by_cases hk : K.text x = t
      · simp [step, unRegister, onText, hk, del]
      · simp [step, unRegister, onText, hk, del, Ne.symm hk, ih]

theorem dev_byID (K : Keys α) (h : List (Op α)) (k : BitVec 64) (h0 : k ≠ 0#64) :
    (run K true h).byID k = firstWins (onID K k) h := by
  induction h using history_induction with
  | nil => rfl
  | concat h op ih =>
    rw [run_concat, firstWins_concat]
    cases op with
    | register x =>
      by_cases hk : K.id x = k
      · subst hk
        simp only [step, register, onID, if_pos]
        rw [if_neg (by simpa using h0)]
        cases hx : (run K true h).byID (K.id x) with
        | none => rw [← ih, hx]; simp [put]
        | some y => rw [← ih, hx]; simp [hx]
      · simp only [onID, if_neg hk]
        rw [← ih]
        simp only [step, register]
        split
        · rfl
        · split
          · rfl
          · simp [put, Ne.symm hk]
    | remove x =>
      by_cases hk : K.id x = k
      · simp [step, unRegister, onID, hk, del]
      · simp [step, unRegister, onID, hk, del, Ne.symm hk, ih]

/-- `h2` has no call for an error with this identifier. -/
def Untouched (key : α → Bool) (h2 : List (Op α)) : Prop :=
  ∀ o ∈ h2, match o with
    | .register x => key x = false
    | .remove x => key x = false

theorem untouched_iff_id (K : Keys α) (k : BitVec 64) (h2 : List (Op α)) :
    (∀ o ∈ h2, onID K k o = none) ↔ Untouched (fun x => K.id x == k) h2 := by
  refine forall_congr' fun o => imp_congr_right fun _ => ?_
  cases o <;> simp [onID]

theorem untouched_iff_text (K : Keys α) (t : Bytes) (h2 : List (Op α)) :
    (∀ o ∈ h2, onText K t o = none) ↔ Untouched (fun x => K.text x == t) h2 := by
  refine forall_congr' fun o => imp_congr_right fun _ => ?_
  cases o <;> simp [onText]

theorem onID_some (K : Keys α) (k : BitVec 64) (op : Op α) (x : α) :
    onID K k op = some (some x) ↔ op = .register x ∧ K.id x = k := by
  cases op with
  | register y =>
    simp only [onID, Op.register.injEq]
    split
    · next h =>
      simp only [Option.some.injEq]
      exact ⟨fun e => ⟨e, e ▸ h⟩, fun e => e.1⟩
    · next h =>
      simp only [reduceCtorEq, false_iff, not_and]
      intro e he; subst e; exact h he
  | remove y => simp only [onID]; split <;> simp

theorem onText_some (K : Keys α) (t : Bytes) (op : Op α) (x : α) :
    onText K t op = some (some x) ↔ op = .register x ∧ K.text x = t := by
  cases op with
  | register y =>
    simp only [onText, Op.register.injEq]
    split
    · next h =>
      simp only [Option.some.injEq]
      exact ⟨fun e => ⟨e, e ▸ h⟩, fun e => e.1⟩
    · next h =>
      simp only [reduceCtorEq, false_iff, not_and]
      intro e he; subst e; exact h he
  | remove y => simp only [onText]; split <;> simp

theorem getByID_found (s : State α) (k : BitVec 64) (h0 : k ≠ 0#64) (x : α) :
    getByID s k = .found x ↔ s.byID k = some x := by
  rw [getByID, if_neg h0]
  cases s.byID k <;> simp

theorem getByMediaType_found (s : State α) (t : Bytes) (x : α) :
    getByMediaType s t = .found x ↔ s.byMediaType t = some x := by
  rw [getByMediaType]
  cases s.byMediaType t <;> simp

/-- C41 (not in developer mode): after any history, looking up a non-zero identifier finds an error
exactly when it was registered with it and nothing was registered or unregistered with it since;
otherwise the answer is not-found.  Missing: the identifier zero, refuted below. -/
theorem C41_by_id (K : Keys α) (h : List (Op α)) (k : BitVec 64) (h0 : k ≠ 0#64) :
    (∀ x, getByID (run K false h) k = .found x ↔ ∃ h1 h2, h = h1 ++ .register x :: h2 ∧ K.id x = k ∧
      Untouched (fun y => K.id y == k) h2) ∧
    getByID (run K false h) k ≠ .nil := by
  constructor
  · intro x
    rw [getByID_found _ _ h0, prod_byID, lastWins_iff]
    constructor
    · intro ⟨h1, op, h2, e, ho, hu⟩
      obtain ⟨rfl, hk⟩ := (onID_some K k op x).1 ho
      exact ⟨h1, h2, e, hk, (untouched_iff_id K k h2).1 hu⟩
    · intro ⟨h1, h2, e, hk, hu⟩
      exact ⟨h1, _, h2, e, (onID_some K k _ x).2 ⟨rfl, hk⟩, (untouched_iff_id K k h2).2 hu⟩
  · rw [getByID, if_neg h0]
    split <;> simp

example := C41_by_id (α := BitVec 64 × Bytes) ⟨(·.1), (·.2)⟩ [.register (5, [1]), .register (5, [2]), .remove (6, [3])] 5 (by decide)

/-- C41 (not in developer mode): the same for lookups by media type. -/
theorem C41_by_media_type (K : Keys α) (h : List (Op α)) (t : Bytes) (x : α) :
    getByMediaType (run K false h) t = .found x ↔ ∃ h1 h2, h = h1 ++ .register x :: h2 ∧ K.text x = t ∧
      Untouched (fun y => K.text y == t) h2 := by
  rw [getByMediaType_found, prod_byText, lastWins_iff]
  constructor
  · intro ⟨h1, op, h2, e, ho, hu⟩
    obtain ⟨rfl, hk⟩ := (onText_some K t op x).1 ho
    exact ⟨h1, h2, e, hk, (untouched_iff_text K t h2).1 hu⟩
  · intro ⟨h1, h2, e, hk, hu⟩
    exact ⟨h1, _, h2, e, (onText_some K t _ x).2 ⟨rfl, hk⟩, (untouched_iff_text K t h2).2 hu⟩

/-- C41 (developer mode): a registration is refused, changing nothing, exactly when the identifier is
zero or in use. -/
theorem C41_dev_refused (K : Keys α) (h : List (Op α)) (x : α) :
    ((register K true (run K true h) x).2 ≠ none ↔
      K.id x = 0#64 ∨ ∃ y, (run K true h).byID (K.id x) = some y) ∧
    ((register K true (run K true h) x).2 ≠ none → (register K true (run K true h) x).1 = run K true h) := by
  unfold register
  by_cases h0 : K.id x = 0#64
  · simp [h0]
  · cases hx : (run K true h).byID (K.id x) <;> simp [h0]

/-- C41 (developer mode): a registered identifier is never overwritten: it is found in every later
state until something is unregistered with it. -/
theorem C41_dev_never_overwritten (K : Keys α) (h h' : List (Op α)) (k : BitVec 64) (x : α)
    (hx : getByID (run K true h) k = .found x)
    (hu : ∀ o ∈ h', ∀ y, o = .remove y → K.id y ≠ k) :
    getByID (run K true (h ++ h')) k = .found x := by
  have h0 : k ≠ 0#64 := by
    intro e; rw [getByID, if_pos e] at hx; simp at hx
  rw [getByID_found _ _ h0, dev_byID K _ k h0, firstWins_iff] at hx ⊢
  obtain ⟨h1, mid, op, h2, e, ho, hd, hm, hall⟩ := hx
  refine ⟨h1, mid, op, h2 ++ h', by simp [e], ho, hd, hm, ?_⟩
  intro o ho'
  rcases List.mem_append.1 ho' with ho' | ho'
  · exact hall o ho'
  · cases o with
    | register y => simp only [onID]; split <;> simp
    | remove y => simp only [onID]; rw [if_neg (hu _ ho' y rfl)]; simp

example := C41_dev_never_overwritten (α := BitVec 64 × Bytes) ⟨(·.1), (·.2)⟩ [.register (5, [1])] [.register (5, [2]), .remove (6, [3])] 5 (5, [1])
  rfl (by simp)

/-- C41 (both modes): if the identifiers are determined by the texts and the other way round, the two
lookups agree after every history. -/
theorem C41_lookups_agree (K : Keys α) (dev : Bool) (hinj : ∀ x y, K.id x = K.id y ↔ K.text x = K.text y)
    (h : List (Op α)) (x : α) (h0 : K.id x ≠ 0#64) :
    getByMediaType (run K dev h) (K.text x) = getByID (run K dev h) (K.id x) := by
  suffices hs : (run K dev h).byMediaType (K.text x) = (run K dev h).byID (K.id x) by
    rw [getByMediaType, getByID, if_neg h0, hs]
  induction h using history_induction with
  | nil => rfl
  | concat h op ih =>
    rw [run_concat]
    cases op with
    | register y =>
      simp only [step, register]
      split
      · exact ih
      · split
        · exact ih
        · simp only [put]
          by_cases he : K.id x = K.id y
          · rw [if_pos he, if_pos ((hinj x y).1 he)]
          · rw [if_neg he, if_neg (fun e => he ((hinj x y).2 e))]; exact ih
    | remove y =>
      simp only [step, unRegister, del]
      by_cases he : K.id x = K.id y
      · rw [if_pos he, if_pos ((hinj x y).1 he)]
      · rw [if_neg he, if_neg (fun e => he ((hinj x y).2 e))]; exact ih

example := C41_lookups_agree (α := BitVec 8) ⟨fun x => x.setWidth 64, fun x => [x]⟩ false
  (fun x y => by simp only [List.cons.injEq, and_true]; exact ⟨fun h => by bv_omega, fun h => h ▸ rfl⟩) [.register 5, .remove 6] 5 (by decide)

/-- C193: outside developer mode an error with the identifier zero is registered without complaint and
never found by it: the answer is nil, no error at all. -/
theorem C193_zero_violated (K : Keys α) (h : List (Op α)) (x : α) :
    (register K false (run K false h) x).2 = none ∧ getByID (run K false h) 0#64 = .nil := by
  simp [register, getByID]

example : let K : Keys (BitVec 64 × Bytes) := ⟨(·.1), (·.2)⟩
    getByID (run K false [.register (5, [1]), .register (5, [2]), .register (6, [3]), .remove (6, [3])]) 5
      = .found (5, [2]) := rfl
example : let K : Keys (BitVec 64 × Bytes) := ⟨(·.1), (·.2)⟩
    getByID (run K true [.register (5, [1]), .register (5, [2])]) 5 = .found (5, [1]) := rfl

end Errors

/-! ## C42: the service registry -/
namespace Services

/-- What a call does to the slot of identifier `k`. -/
def onID (K : Keys α) (k : BitVec 64) : Op α → Option (Option α)
  | .register x => if K.id x = k ∧ K.id x ≠ 0#64 then some (some x) else none
  | .remove x => if K.id x = k then some none else none

/-- What a call does to the slot of text `t`. -/
def onText (K : Keys α) (t : Bytes) : Op α → Option (Option α)
  | .register x => if K.text x = t ∧ K.id x ≠ 0#64 then some (some x) else none
  | .remove x => if K.text x = t then some none else none

theorem run_concat (K : Keys α) (h : List (Op α)) (op : Op α) :
    run K (h ++ [op]) = step K (run K h) op := by
  simp [run, List.foldl_append]

theorem byID_eq (K : Keys α) (h : List (Op α)) (k : BitVec 64) :
    (run K h).byID k = firstWins (onID K k) h := by
  induction h using history_induction with
  | nil => rfl
  | concat h op ih =>
    rw [run_concat, firstWins_concat]
    cases op with
    | register x =>
      simp only [step, register]
      by_cases h0 : K.id x = 0#64
      · simp [h0, onID, ih]
      · rw [if_neg h0]
        by_cases hk : K.id x = k
        · subst hk
          simp only [onID, ne_eq, h0, not_false_eq_true, and_self, if_true, registerServiceByMediaType, getByID]
          rw [← ih]
          cases hx : (run K h).byID (K.id x) with
          | none => simp [put]
          | some y => simp [hx]
        · simp only [onID, hk, false_and, if_false, registerServiceByMediaType, getByID]
          rw [← ih]
          cases (run K h).byID (K.id x) with
          | none => simp [put, Ne.symm hk]
          | some y => rfl
    | remove x =>
      by_cases hk : K.id x = k
      · simp [step, delete, onID, hk, del]
      · simp [step, delete, onID, hk, del, Ne.symm hk, ih]

theorem byText_eq (K : Keys α) (h : List (Op α)) (t : Bytes) :
    (run K h).byMediaType t = firstWins (onText K t) h := by
  induction h using history_induction with
  | nil => rfl
  | concat h op ih =>
    rw [run_concat, firstWins_concat]
    cases op with
    | register x =>
      simp only [step, register]
      by_cases h0 : K.id x = 0#64
      · simp [h0, onText, ih]
      · rw [if_neg h0]
        by_cases hk : K.text x = t
        · subst hk
          simp only [onText, ne_eq, h0, not_false_eq_true, and_self, if_true, registerServiceByMediaType,
            getByMediaType]
          rw [← ih]
          cases hx : (run K h).byMediaType (K.text x) with
          | none => simp [put]
          | some y => simp [hx]
        · simp only [onText, hk, false_and, if_false, registerServiceByMediaType, getByMediaType]
          rw [← ih]
          cases (run K h).byMediaType (K.text x) with
          | none => simp [put, Ne.symm hk]
          | some y => rfl
    | remove x =>
      by_cases hk : K.text x = t
      · simp [step, delete, onText, hk, del]
      · simp [step, delete, onText, hk, del, Ne.symm hk, ih]

/-- Specification: `x` is the first service registered with the key (identifiers other than zero only)
since the last deletion with that key. -/
def FirstSinceDeletion (K : Keys α) (key : α → Bool) (h : List (Op α)) (x : α) : Prop :=
  ∃ before between after, h = before ++ between ++ .register x :: after ∧ key x = true ∧ K.id x ≠ 0#64 ∧
    (before = [] ∨ ∃ h0 y, before = h0 ++ [.remove y] ∧ key y = true) ∧
    (∀ y, .register y ∈ between → key y = true → K.id y = 0#64) ∧
    (∀ y, .remove y ∈ between → key y = false) ∧
    (∀ y, .remove y ∈ after → key y = false)

theorem first_iff (K : Keys α) (key : α → Bool) (f : Op α → Option (Option α))
    (hr : ∀ x, f (.register x) = if key x = true ∧ K.id x ≠ 0#64 then some (some x) else none)
    (hd : ∀ x, f (.remove x) = if key x = true then some none else none) (h : List (Op α)) (x : α) :
    firstWins f h = some x ↔ FirstSinceDeletion K key h x := by
  rw [firstWins_iff]
  constructor
  · intro ⟨h1, mid, op, h2, e, ho, h0, hm, ha⟩
    cases op with
    | remove y => rw [hd] at ho; split at ho <;> simp at ho
    | register y =>
      rw [hr] at ho
      split at ho
      · next hk =>
        simp only [Option.some.injEq] at ho
        subst ho
        refine ⟨h1, mid, h2, e, hk.1, hk.2, ?_, ?_, ?_, ?_⟩
        · rcases h0 with h0 | ⟨h0, d, e0, hd0⟩
          · exact .inl h0
          · cases d with
            | register z => rw [hr] at hd0; split at hd0 <;> simp at hd0
            | remove z =>
              rw [hd] at hd0
              split at hd0
              · next hz => exact .inr ⟨h0, z, e0, hz⟩
              · simp at hd0
        · intro z hz hkz
          have := hm _ hz
          rw [hr] at this
          apply Decidable.byContradiction
          intro hn
          rw [if_pos ⟨hkz, hn⟩] at this; simp at this
        · intro z hz
          have := hm _ hz
          rw [hd] at this
          cases hkz : key z with
          | false => rfl
          | true => rw [if_pos hkz] at this; simp at this
        · intro z hz
          have := ha _ hz
          rw [hd] at this
          cases hkz : key z with
          | false => rfl
          | true => rw [if_pos hkz] at this; simp at this
      · simp at ho
  · intro ⟨h1, mid, h2, e, hk, hn, h0, hm, hm', ha⟩
    refine ⟨h1, mid, _, h2, e, by rw [hr, if_pos ⟨hk, hn⟩], ?_, ?_, ?_⟩
    · rcases h0 with h0 | ⟨h0, y, e0, hy⟩
      · exact .inl h0
      · exact .inr ⟨h0, _, e0, by rw [hd, if_pos hy]⟩
    · intro o ho
      cases o with
      | register z =>
        rw [hr, if_neg]
        intro hz
        exact hz.2 (hm z ho hz.1)
      | remove z => rw [hd, hm' z ho]; simp
    · intro o ho
      cases o with
      | register z => rw [hr]; split <;> simp
      | remove z => rw [hd, ha z ho]; simp

/-- C42: after any history, looking up an identifier returns the first service registered with it since
the last deletion, and not-found exactly if there is none. -/
theorem C42_by_id (K : Keys α) (h : List (Op α)) (k : BitVec 64) :
    (∀ x, (getByID (run K h) k).1 = some x ↔ FirstSinceDeletion K (fun y => K.id y == k) h x) ∧
    ((getByID (run K h) k).2 = some .notFound ↔ ∀ x, ¬ FirstSinceDeletion K (fun y => K.id y == k) h x) := by
  have hx : ∀ x, (run K h).byID k = some x ↔ FirstSinceDeletion K (fun y => K.id y == k) h x := by
    intro x
    rw [byID_eq]
    exact first_iff K _ _ (fun x => by simp [onID]) (fun x => by simp [onID]) h x
  refine ⟨hx, ?_⟩
  simp only [getByID]
  cases hk : (run K h).byID k with
  | none =>
    simp only [if_true, true_iff]
    intro x hf
    have := (hx x).2 hf
    rw [hk] at this; simp at this
  | some x =>
    simp only [reduceCtorEq, if_false, false_iff]
    intro hall
    exact hall x ((hx x).1 hk)

/-- C42: the same for media types. -/
theorem C42_by_media_type (K : Keys α) (h : List (Op α)) (t : Bytes) :
    (∀ x, (getByMediaType (run K h) t).1 = some x ↔ FirstSinceDeletion K (fun y => K.text y == t) h x) ∧
    ((getByMediaType (run K h) t).2 = some .notFound ↔ ∀ x, ¬ FirstSinceDeletion K (fun y => K.text y == t) h x) := by
  have hx : ∀ x, (run K h).byMediaType t = some x ↔ FirstSinceDeletion K (fun y => K.text y == t) h x := by
    intro x
    rw [byText_eq]
    exact first_iff K _ _ (fun x => by simp [onText]) (fun x => by simp [onText]) h x
  refine ⟨hx, ?_⟩
  simp only [getByMediaType]
  cases hk : (run K h).byMediaType t with
  | none =>
    simp only [if_true, true_iff]
    intro x hf
    rw [(hx x).2 hf] at hk
    cases hk
  | some x =>
    simp only [reduceCtorEq, if_false, false_iff]
    intro hall
    exact hall x ((hx x).1 hk)

/-- C42: the identifier zero is rejected, and only it; a rejected registration changes nothing. -/
theorem C42_zero_rejected (K : Keys α) (s : State α) (x : α) :
    ((register K s x).2 = some .notProvideIdentifier ↔ K.id x = 0#64) ∧
    (K.id x = 0#64 → (register K s x).1 = s) := by
  unfold register
  by_cases h : K.id x = 0#64 <;> simp [h]

/-- C42: no registration replaces a service in either index. -/
theorem C42_never_replaced (K : Keys α) (s : State α) (x y : α) (k : BitVec 64) (t : Bytes) :
    (s.byID k = some y → (register K s x).1.byID k = some y) ∧
    (s.byMediaType t = some y → (register K s x).1.byMediaType t = some y) := by
  unfold register registerServiceByMediaType getByID getByMediaType
  by_cases h : K.id x = 0#64
  · simp [h]
  · rw [if_neg h]
    constructor
    · intro hy
      simp only
      cases hx : s.byID (K.id x) with
      | some z => exact hy
      | none =>
        simp only [put]
        rw [if_neg]
        · exact hy
        · intro e; rw [e, hx] at hy; simp at hy
    · intro hy
      simp only
      cases hx : s.byMediaType (K.text x) with
      | some z => exact hy
      | none =>
        simp only [put]
        rw [if_neg]
        · exact hy
        · intro e; rw [e, hx] at hy; simp at hy

/-- C194, that the indexes agree, proved if identifiers and texts determine each other.
Missing: that duplicates are reported, and the list of services (refuted:
`C194_indexes_violated`, `C194_duplicate_unreported_violated`, `C194_services_list_violated`). -/
theorem C194_indexes_agree_partial (K : Keys α) (hinj : ∀ x y, K.id x = K.id y ↔ K.text x = K.text y)
    (h : List (Op α)) (x : α) : (run K h).byMediaType (K.text x) = (run K h).byID (K.id x) := by
  rw [byText_eq, byID_eq]
  congr 1
  funext op
  cases op with
  | register y => simp only [onText, onID, ← hinj y x]
  | remove y => simp only [onText, onID, ← hinj y x]

example := C194_indexes_agree_partial (α := BitVec 8) ⟨fun x => x.setWidth 64, fun x => [x]⟩
  (fun x y => by simp only [List.cons.injEq, and_true]; exact ⟨fun h => by bv_omega, fun h => h ▸ rfl⟩) [.register 5, .remove 6] 5

/-- C194: they do not agree in general: of two services with one text and two identifiers, the second is
found by its identifier but not by its text, and deleting it removes the first from the text index. -/
theorem C194_indexes_violated (K : Keys α) (x y : α) (hx : K.id x ≠ 0#64) (hy : K.id y ≠ 0#64)
    (hi : K.id x ≠ K.id y) (ht : K.text x = K.text y) :
    (run K [.register x, .register y]).byID (K.id y) = some y ∧
    (run K [.register x, .register y]).byMediaType (K.text y) = some x ∧
    (run K [.register x, .register y, .remove y]).byID (K.id x) = some x ∧
    (run K [.register x, .register y, .remove y]).byMediaType (K.text x) = none := by
  simp [byID_eq, byText_eq, firstWins, onID, onText, hx, hy, hi, ht, Ne.symm hi]

example := C194_indexes_violated (α := BitVec 64 × Bytes) ⟨(·.1), (·.2)⟩ (5, [1]) (6, [1]) (by decide) (by decide) (by decide) rfl

/-- C194: a duplicate is not reported to the caller. -/
theorem C194_duplicate_unreported_violated (K : Keys α) (s : State α) (x y : α) (hx : K.id x ≠ 0#64)
    (_hy : s.byID (K.id x) = some y) : (register K s x).2 = none := by
  simp [register, hx]

example := C194_duplicate_unreported_violated (α := BitVec 64 × Bytes) ⟨(·.1), (·.2)⟩ (run ⟨(·.1), (·.2)⟩ [.register (5, [1])]) (5, [2]) (5, [1])
  (by decide) rfl

/-- C194: the list of all services begins with 512 nil services and keeps deleted and refused ones: it
is all registrations of the history with a non-zero identifier. -/
theorem C194_services_list_violated (K : Keys α) (h : List (Op α)) :
    services (run K h) = List.replicate 512 none ++ h.filterMap fun o => match o with
      | .register x => if K.id x = 0#64 then none else some (some x)
      | .remove _ => none := by
  induction h using history_induction with
  | nil => exact (List.append_nil _).symm
  | concat h op ih =>
    rw [run_concat, List.filterMap_append, ← List.append_assoc, ← ih]
    cases op with
    | register x =>
      by_cases h0 : K.id x = 0#64
      · simp [step, register, h0, services]
      · simp [step, register, h0, services]
    | remove x => simp [step, delete, services]

example : let K : Keys (BitVec 64 × Bytes) := ⟨(·.1), (·.2)⟩
    (getByID (run K [.register (5, [1]), .remove (5, [1]), .register (5, [2]), .register (5, [3])]) 5).1
      = some (5, [2]) := rfl

end Services

/-! ## C78: media types and compress types -/
namespace Types

/-- What a registration does to the slot of key `k`; `key x` is `none` if `x` is not in this index. -/
def offer {κ} [DecidableEq κ] (key : α → Option κ) (k : κ) (x : α) : Option (Option α) :=
  if key x = some k then some (some x) else none

theorem offer_last {κ} [DecidableEq κ] (key : α → Option κ) (k : κ) (h : List α) (x : α) :
    lastWins (offer key k) h = some x ↔
      ∃ h1 h2, h = h1 ++ x :: h2 ∧ key x = some k ∧ ∀ y ∈ h2, key y ≠ some k := by
  rw [lastWins_iff]
  constructor
  · intro ⟨h1, op, h2, e, ho, ha⟩
    unfold offer at ho
    split at ho
    · next hk =>
      simp only [Option.some.injEq] at ho
      subst ho
      refine ⟨h1, h2, e, hk, ?_⟩
      intro y hy he
      have := ha y hy
      simp [offer, he] at this
    · simp at ho
  · intro ⟨h1, h2, e, hk, ha⟩
    exact ⟨h1, x, h2, e, by simp [offer, hk], fun y hy => by simp [offer, ha y hy]⟩

theorem mrun_eq (K : TypeKeys α) (h : List α) :
    (mrun K h = none ↔ ∃ x ∈ h, K.mainType x = [] ∧ K.subType x = []) ∧
    ∀ s, mrun K h = some s →
      (∀ k, s.byMediaType k = lastWins (offer (fun x => some (K.text x)) k) h) ∧
      (∀ k, s.byID k = lastWins (offer (fun x => some (K.id x)) k) h) ∧
      (∀ k, s.byFileExtension k
        = lastWins (offer (fun x => if K.fileExtension x = [] then none else some (K.fileExtension x)) k) h) := by
  induction h using history_induction with
  | nil =>
    refine ⟨by simp [mrun], ?_⟩
    intro s hs
    injection hs with hs
    subst hs
    exact ⟨fun _ => rfl, fun _ => rfl, fun _ => rfl⟩
  | concat h x ih =>
    obtain ⟨ih1, ih2⟩ := ih
    have hc : mrun K (h ++ [x]) = (mrun K h).bind fun s => mregister K s x := by
      simp [mrun, List.foldl_append]
    rw [hc]
    constructor
    · cases hr : mrun K h with
      | none =>
        obtain ⟨y, hy, he⟩ := ih1.1 hr
        simp only [Option.bind_none, true_iff]
        exact ⟨y, List.mem_append_left _ hy, he⟩
      | some s =>
        have hno : ¬ ∃ y ∈ h, K.mainType y = [] ∧ K.subType y = [] := by
          intro e; rw [ih1.2 e] at hr; simp at hr
        simp only [Option.bind_some, mregister]
        split
        · next he => simp only [true_iff]; exact ⟨x, by simp, he⟩
        · next he =>
          simp only [reduceCtorEq, false_iff]
          intro ⟨y, hy, hy'⟩
          rcases List.mem_append.1 hy with hy | hy
          · exact hno ⟨y, hy, hy'⟩
          · simp only [List.mem_singleton] at hy; subst hy; exact he hy'
    · intro s hs
      obtain ⟨s0, hs0, hs⟩ := Option.bind_eq_some_iff.1 hs
      obtain ⟨i1, i2, i3⟩ := ih2 s0 hs0
      unfold mregister at hs
      split at hs
      · simp at hs
      · injection hs with hs
        subst hs
        refine ⟨?_, ?_, ?_⟩
        · intro k
          rw [lastWins_concat, ← i1]
          simp only [put, offer, Option.some.injEq]
          by_cases he : K.text x = k
          · simp [he]
          · simp [he, Ne.symm he]
        · intro k
          rw [lastWins_concat, ← i2]
          simp only [put, offer, Option.some.injEq]
          by_cases he : K.id x = k
          · simp [he]
          · simp [he, Ne.symm he]
        · intro k
          rw [lastWins_concat, ← i3]
          simp only [offer]
          by_cases h0 : K.fileExtension x = []
          · simp [h0]
          · simp only [ne_eq, h0, not_false_eq_true, if_true, if_false, put, Option.some.injEq]
            by_cases he : K.fileExtension x = k
            · simp [he]
            · simp [he, Ne.symm he]

/-- C78: registering media types panics exactly for one without main and sub type; otherwise, after any
history, a lookup by text, identifier or file extension returns the last media type registered with
that key (media types without a file extension are not in that index). -/
theorem C78_media_types (K : TypeKeys α) (h : List α) :
    (mrun K h = none ↔ ∃ x ∈ h, K.mainType x = [] ∧ K.subType x = []) ∧
    ∀ s, mrun K h = some s → ∀ x,
      (∀ k, s.byMediaType k = some x ↔
        ∃ h1 h2, h = h1 ++ x :: h2 ∧ K.text x = k ∧ ∀ y ∈ h2, K.text y ≠ k) ∧
      (∀ k, s.byID k = some x ↔ ∃ h1 h2, h = h1 ++ x :: h2 ∧ K.id x = k ∧ ∀ y ∈ h2, K.id y ≠ k) ∧
      (∀ k, s.byFileExtension k = some x ↔ k ≠ [] ∧
        ∃ h1 h2, h = h1 ++ x :: h2 ∧ K.fileExtension x = k ∧ ∀ y ∈ h2, K.fileExtension y ≠ k) := by
  obtain ⟨h1, h2⟩ := mrun_eq K h
  refine ⟨h1, ?_⟩
  intro s hs x
  obtain ⟨e1, e2, e3⟩ := h2 s hs
  refine ⟨?_, ?_, ?_⟩
  · intro k; rw [e1, offer_last]; simp
  · intro k; rw [e2, offer_last]; simp
  · intro k
    rw [e3, offer_last]
    have key : ∀ y, (if K.fileExtension y = [] then none else some (K.fileExtension y)) = some k ↔
        k ≠ [] ∧ K.fileExtension y = k := by
      intro y
      by_cases h0 : K.fileExtension y = []
      · simp only [h0, if_true, reduceCtorEq, ne_eq, false_iff, not_and]
        intro hk e; exact hk e.symm
      · simp only [h0, if_false, Option.some.injEq, ne_eq]
        exact ⟨fun e => ⟨fun e0 => h0 (e.trans e0), e⟩, fun e => e.2⟩
    constructor
    · intro ⟨a, b, e, hx, hy⟩
      have hx := (key x).1 hx
      exact ⟨hx.1, a, b, e, hx.2, fun y hb he => hy y hb ((key y).2 ⟨hx.1, he⟩)⟩
    · intro ⟨h0, a, b, e, hx, hy⟩
      exact ⟨a, b, e, (key x).2 ⟨h0, hx⟩, fun y hb he => hy y hb ((key y).1 he).2⟩

theorem crun_eq (K : TypeKeys α) (h : List α) :
    (crun K h = none ↔ ∃ x ∈ h, K.mediaType x = [] ∨ K.contentEncoding x = []) ∧
    ∀ s, crun K h = some s →
      (∀ k, s.byMediaType k = lastWins (offer (fun x => some (K.text x)) k) h) ∧
      (∀ k, s.byID k = lastWins (offer (fun x => some (K.id x)) k) h) ∧
      (∀ k, s.byFileExtension k = lastWins (offer (fun x => some (K.fileExtension x)) k) h) ∧
      (∀ k, s.byContentEncoding k = lastWins (offer (fun x => some (K.contentEncoding x)) k) h) ∧
      s.contentEncodings = h.map K.contentEncoding := by
  induction h using history_induction with
  | nil =>
    refine ⟨by simp [crun], ?_⟩
    intro s hs
    injection hs with hs
    subst hs
    exact ⟨fun _ => rfl, fun _ => rfl, fun _ => rfl, fun _ => rfl, rfl⟩
  | concat h x ih =>
    obtain ⟨ih1, ih2⟩ := ih
    have hc : crun K (h ++ [x]) = (crun K h).bind fun s => cregister K s x := by
      simp [crun, List.foldl_append]
    rw [hc]
    constructor
    · cases hr : crun K h with
      | none =>
        obtain ⟨y, hy, he⟩ := ih1.1 hr
        simp only [Option.bind_none, true_iff]
        exact ⟨y, List.mem_append_left _ hy, he⟩
      | some s =>
        have hno : ¬ ∃ y ∈ h, K.mediaType y = [] ∨ K.contentEncoding y = [] := by
          intro e; rw [ih1.2 e] at hr; simp at hr
        simp only [Option.bind_some, cregister]
        split
        · next he => simp only [true_iff]; exact ⟨x, by simp, .inl he⟩
        · next he =>
          split
          · next he' => simp only [true_iff]; exact ⟨x, by simp, .inr he'⟩
          · next he' =>
            simp only [reduceCtorEq, false_iff]
            intro ⟨y, hy, hy'⟩
            rcases List.mem_append.1 hy with hy | hy
            · exact hno ⟨y, hy, hy'⟩
            · simp only [List.mem_singleton] at hy; subst hy
              rcases hy' with hy' | hy'
              · exact he hy'
              · exact he' hy'
    · intro s hs
      obtain ⟨s0, hs0, hs⟩ := Option.bind_eq_some_iff.1 hs
      obtain ⟨i1, i2, i3, i4, i5⟩ := ih2 s0 hs0
      unfold cregister at hs
      split at hs
      · simp at hs
      · split at hs
        · simp at hs
        · injection hs with hs
          subst hs
          refine ⟨?_, ?_, ?_, ?_, ?_⟩
          · intro k
            rw [lastWins_concat, ← i1]
            simp only [put, offer, Option.some.injEq]
            by_cases he : K.text x = k
            · simp [he]
            · simp [he, Ne.symm he]
          · intro k
            rw [lastWins_concat, ← i2]
            simp only [put, offer, Option.some.injEq]
            by_cases he : K.id x = k
            · simp [he]
            · simp [he, Ne.symm he]
          · intro k
            rw [lastWins_concat, ← i3]
            simp only [put, offer, Option.some.injEq]
            by_cases he : K.fileExtension x = k
            · simp [he]
            · simp [he, Ne.symm he]
          · intro k
            rw [lastWins_concat, ← i4]
            simp only [put, offer, Option.some.injEq]
            by_cases he : K.contentEncoding x = k
            · simp [he]
            · simp [he, Ne.symm he]
          · simp [i5]

/-- C78: registering compress types panics exactly for one without media type or content encoding;
otherwise, after any history, every lookup returns the last one registered with that key, and the list
of content encodings is that of the registrations, in order. -/
theorem C78_compress_types (K : TypeKeys α) (h : List α) :
    (crun K h = none ↔ ∃ x ∈ h, K.mediaType x = [] ∨ K.contentEncoding x = []) ∧
    ∀ s, crun K h = some s → s.contentEncodings = h.map K.contentEncoding ∧ ∀ x,
      (∀ k, s.byMediaType k = some x ↔
        ∃ h1 h2, h = h1 ++ x :: h2 ∧ K.text x = k ∧ ∀ y ∈ h2, K.text y ≠ k) ∧
      (∀ k, s.byID k = some x ↔ ∃ h1 h2, h = h1 ++ x :: h2 ∧ K.id x = k ∧ ∀ y ∈ h2, K.id y ≠ k) ∧
      (∀ k, s.byFileExtension k = some x ↔
        ∃ h1 h2, h = h1 ++ x :: h2 ∧ K.fileExtension x = k ∧ ∀ y ∈ h2, K.fileExtension y ≠ k) ∧
      (∀ k, s.byContentEncoding k = some x ↔
        ∃ h1 h2, h = h1 ++ x :: h2 ∧ K.contentEncoding x = k ∧ ∀ y ∈ h2, K.contentEncoding y ≠ k) := by
  obtain ⟨h1, h2⟩ := crun_eq K h
  refine ⟨h1, ?_⟩
  intro s hs
  obtain ⟨e1, e2, e3, e4, e5⟩ := h2 s hs
  refine ⟨e5, fun x => ⟨?_, ?_, ?_, ?_⟩⟩
  · intro k; rw [e1, offer_last]; simp
  · intro k; rw [e2, offer_last]; simp
  · intro k; rw [e3, offer_last]; simp
  · intro k; rw [e4, offer_last]; simp

/-- C78: every content encoding that is listed can be looked up. -/
theorem C78_listed_found (K : TypeKeys α) (h : List α) (s : CState α) (hs : crun K h = some s)
    (ce : Bytes) (hc : ce ∈ s.contentEncodings) :
    ∃ x ∈ h, s.byContentEncoding ce = some x ∧ K.contentEncoding x = ce := by
  have e := (crun_eq K h).2 s hs
  have e4 := e.2.2.2.1
  rw [e.2.2.2.2] at hc
  rw [e4]
  clear e e4 hs
  induction h using history_induction with
  | nil => simp at hc
  | concat h x ih =>
    rw [lastWins_concat]
    by_cases he : K.contentEncoding x = ce
    · exact ⟨x, by simp, by simp [offer, he], he⟩
    · have : ce ∈ h.map K.contentEncoding := by
        rw [List.map_append, List.mem_append] at hc
        rcases hc with hc | hc
        · exact hc
        · simp only [List.map_cons, List.map_nil, List.mem_singleton] at hc; exact absurd hc.symm he
      obtain ⟨y, hy, h1, h2⟩ := ih this
      exact ⟨y, by simp [hy], by simpa [offer, he] using h1, h2⟩

example := C78_listed_found (α := Bytes) ⟨⟨fun _ => 7, id⟩, id, id, id, id, id⟩ [bs "gzip", bs "br"] _
  (Option.some_get (show (crun (α := Bytes) ⟨⟨fun _ => 7, id⟩, id, id, id, id, id⟩ [bs "gzip", bs "br"]).isSome by decide +kernel)).symm
  (bs "br") (by decide +kernel)

/-- C78: parsing a media type panics exactly without a slash; otherwise the parts around the first
slash give the text back, and the main type has no slash. -/
theorem C78_parse (t : Bytes) :
    (parse t = none ↔ ch '/' ∉ t) ∧
    ∀ m s, parse t = some (m, s) ↔ t = m ++ ch '/' :: s ∧ ch '/' ∉ m := by
  constructor
  · simp [parse, indexByte_none_iff]
  · intro m s
    constructor
    · intro h
      obtain ⟨i, hi, he⟩ := Option.map_eq_some_iff.1 h
      obtain ⟨h1, h2, _⟩ := indexByte_some t _ i hi
      injection he with e1 e2
      subst e1 e2
      exact ⟨h1, h2⟩
    · intro ⟨h1, h2⟩
      subst h1
      rw [parse, indexByte_append _ _ _ h2, Option.map_some, List.take_left' rfl]
      congr 2
      rw [show m ++ ch '/' :: s = (m ++ [ch '/']) ++ s by simp, List.drop_left' (by simp)]

example : parse (bs "text/html") = some (bs "text", bs "html") := by decide

end Types

/-! ## C79: error values -/
namespace ErrorValue

/-- C79: comparing errors is an equivalence relation, and nil equals nil only. -/
theorem C79_is_equal :
    (∀ a, isEqual a a = true) ∧ (∀ a b, isEqual a b = isEqual b a) ∧
    (∀ a b c, isEqual a b = true → isEqual b c = true → isEqual a c = true) ∧
    (∀ a, isEqual none a = true ↔ a = none) := by
  refine ⟨?_, ?_, ?_, ?_⟩
  · intro a; cases a <;> simp [isEqual]
  · intro a b
    cases a <;> cases b <;> simp only [isEqual]
    rw [BEq.comm]
    congr 1
    exact BEq.comm
  · intro a b c
    cases a <;> cases b <;> cases c <;> simp [isEqual]
    intro h1 h2 h3 h4
    exact ⟨h1.trans h3, h2.trans h4⟩
  · intro a; cases a <;> simp [isEqual]

/-- C79: wrapping an error with another keeps it equal to itself and gives the other back; wrapping
nil or with nil gives a nil pointer (what that is as an error, `C79_wrapped_nil_violated` says); an error that is not wrapped has no past. -/
theorem C79_chain (e c : Error) :
    isEqual (newChain (some e) (some c)) (some e) = true ∧
    pastChain (newChain (some e) (some c)) = some c ∧
    newChain none (some c) = none ∧ newChain (some e) none = none ∧
    (∀ m i s, pastChain (some (.base m i s)) = none) := by
  simp [newChain, isEqual, pastChain, Error.mediaType, Error.dataTypeID]

/-- C79: for every depth of wrapping, the result equals the innermost error. -/
theorem C79_chain_deep (e : Error) (cs : List Error) :
    isEqual (cs.foldl (fun x c => newChain x (some c)) (some e)) (some e) = true := by
  suffices h : ∀ a, isEqual (some a) (some e) = true →
      isEqual (cs.foldl (fun x c => newChain x (some c)) (some a)) (some e) = true from
    h e (C79_is_equal.1 _)
  induction cs with
  | nil => intro a h; exact h
  | cons c cs ih =>
    intro a h
    exact ih _ h

end ErrorValue

end Memar.Registry
