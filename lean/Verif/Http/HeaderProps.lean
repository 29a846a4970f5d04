import Verif.Http.HeaderSpec

/-! # C13, C14: the HTTP header -/

namespace Memar.Http
open Memar Spec

/-! ## helper lemmas -/

/-- `Header_Find` on the remaining lines. -/
def goFind (key : Bytes) : List KV → Nat → Bytes × Nat
  | [], _ => ([], 0)
  | p :: r, i => if p.1 = key then (p.2, i) else goFind key r (i + 1)

theorem findLoop_eq (lines : List KV) (key : Bytes) (i : Nat) :
    findLoop lines key i = goFind key (lines.drop i) i := by
  fun_induction findLoop lines key i with
  | case1 i h hk => rw [List.drop_eq_getElem_cons h, goFind, if_pos hk]
  | case2 i h hk ih => rw [List.drop_eq_getElem_cons h, goFind, if_neg hk, ih]
  | case3 i h => rw [List.drop_eq_nil_of_le (by omega)]; rfl

theorem goFind_spec (key : Bytes) (l : List KV) (i : Nat) :
    (valuesOf l key = [] ∧ goFind key l i = ([], 0)) ∨
    (∃ v j, goFind key l i = (v, i + j) ∧ valuesOf l key = v :: valuesOf (l.drop (j + 1)) key) := by
  induction l generalizing i with
  | nil => exact .inl ⟨rfl, rfl⟩
  | cons p r ih =>
    by_cases h : p.1 = key
    · refine .inr ⟨p.2, 0, by simp [goFind, h], by simp [valuesOf, h]⟩
    · rcases ih (i + 1) with ⟨h1, h2⟩ | ⟨v, j, h1, h2⟩
      · refine .inl ⟨?_, by simp [goFind, h, h2]⟩
        simpa [valuesOf, h] using h1
      · refine .inr ⟨v, j + 1, ?_, ?_⟩
        · simp [goFind, h, h1]; omega
        · simpa [valuesOf, h] using h2

theorem get_eq (h : Header) (key : Bytes) : h.get key = firstValue h.lines key := by
  unfold Header.get Header.find firstValue
  rw [findLoop_eq, List.drop_zero]
  rcases goFind_spec key h.lines 0 with ⟨h1, h2⟩ | ⟨v, j, h1, h2⟩
  · rw [h1, h2]; rfl
  · rw [h1, h2]; rfl

/-- The lines after any history: some blank lines, then the additions since the last reset. -/
theorem run_lines (ops : List Op) :
    ∃ n, (Header.run ops).lines = List.replicate n ([], []) ++ additions ops := by
  have fold : ∀ (ops : List Op) (h : Header) (n : Nat) (a : List KV),
      h.lines = List.replicate n ([], []) ++ a →
      ∃ m, (ops.foldl Header.apply h).lines = List.replicate m ([], []) ++
        ops.foldl (fun acc o => match o with | .add k v => acc ++ [(k, v)] | .reinit => []) a := by
    intro ops
    induction ops with
    | nil => intro h n a e; exact ⟨n, e⟩
    | cons o ops ih =>
      intro h n a e
      cases o with
      | add k v => exact ih _ n _ (by simp [Header.apply, Header.add, e])
      | reinit =>
        exact ih _ (n + a.length) [] (by
          simp only [Header.apply, Header.reinit, e, List.map_append, List.append_nil]
          rw [List.map_const', List.map_const', List.length_replicate, ← List.replicate_append_replicate])
  obtain ⟨m, hm⟩ := fold ops Header.init headerInitLen [] (by simp [Header.init])
  refine ⟨m, ?_⟩
  rw [Header.run, hm]
  cases ops <;> rfl

theorem valuesOf_append (a b : List KV) (k : Bytes) :
    valuesOf (a ++ b) k = valuesOf a k ++ valuesOf b k := by
  simp [valuesOf, List.filterMap_append]

theorem valuesOf_blank (n : Nat) (k : Bytes) (hk : k ≠ []) :
    valuesOf (List.replicate n ([], [])) k = [] := by
  unfold valuesOf
  rw [List.filterMap_replicate_of_none]
  simp [Ne.symm hk]

theorem run_values (ops : List Op) (k : Bytes) (hk : k ≠ []) :
    valuesOf (Header.run ops).lines k = valuesOf (additions ops) k := by
  obtain ⟨n, hn⟩ := run_lines ops
  rw [hn, valuesOf_append, valuesOf_blank n k hk, List.nil_append]

theorem nthNext_eq (h : Header) (key : Bytes) (n s : Nat)
    (hv : ∀ v ∈ valuesOf (h.lines.drop s) key, v ≠ []) :
    h.nthNext key s n = (valuesOf (h.lines.drop s) key)[n]? := by
  induction n generalizing s with
  | zero =>
    unfold Header.nthNext Header.next Header.find
    rw [findLoop_eq]
    rcases goFind_spec key (h.lines.drop s) s with ⟨h1, h2⟩ | ⟨v, j, h1, h2⟩
    · rw [h1, h2]; rfl
    · have : v ≠ [] := hv v (by rw [h2]; exact List.mem_cons_self)
      rw [h1, h2]; simp [this]
  | succ n ih =>
    unfold Header.nthNext
    rcases goFind_spec key (h.lines.drop s) s with ⟨h1, h2⟩ | ⟨v, j, h1, h2⟩
    · have e : (h.next key s).2 = s := by simp [Header.next, Header.find, findLoop_eq, h2]
      rw [e, ih s hv, h1]; rfl
    · have hne : v ≠ [] := hv v (by rw [h2]; exact List.mem_cons_self)
      have e : (h.next key s).2 = s + (j + 1) := by
        simp [Header.next, Header.find, findLoop_eq, h1, hne]; omega
      have ed : h.lines.drop (s + (j + 1)) = (h.lines.drop s).drop (j + 1) := by
        rw [List.drop_drop]
      rw [e, ih (s + (j + 1)) (by
        intro w hw; rw [ed] at hw; exact hv w (by rw [h2]; exact List.mem_cons_of_mem _ hw)), h2, ed]
      rfl

/-! ## C13 -/

/-- C13: after any history, reading a (non-empty) name gives its earliest value since the last
reset, or the empty string. -/
theorem C13_get_is_first_addition (ops : List Op) (key : Bytes) (hk : key ≠ []) :
    (Header.run ops).get key = firstValue (additions ops) key := by
  rw [get_eq, firstValue, run_values ops key hk]; rfl

example := C13_get_is_first_addition [.add (bs "a") (bs "0"), .reinit, .add (bs "a") (bs "1"), .add (bs "a") (bs "3")] (bs "a") (by decide)

/-- C13: a name never added reads as the empty string. -/
theorem C13_absent_reads_empty (ops : List Op) (key : Bytes) (hk : key ≠ [])
    (h : ∀ p ∈ additions ops, p.1 ≠ key) : (Header.run ops).get key = [] := by
  rw [C13_get_is_first_addition ops key hk]
  have : valuesOf (additions ops) key = [] := by
    simp only [valuesOf, List.filterMap_eq_nil_iff]
    intro p hp
    rw [if_neg (h p hp)]
  rw [firstValue, this]; rfl

example := C13_absent_reads_empty [.add (bs "a") (bs "0"), .reinit, .add (bs "b") (bs "1")] (bs "a") (by decide) (by decide +kernel)

/-- C13: walking the lines returns all values of a name in order of addition, then reports the end
(values are non-empty; the walk takes an empty value for the end, see the next theorem). -/
theorem C13_iteration_lists_all_values (ops : List Op) (key : Bytes) (hk : key ≠ [])
    (hv : ∀ v ∈ valuesOf (additions ops) key, v ≠ []) (n : Nat) :
    (Header.run ops).nthNext key 0 n = (valuesOf (additions ops) key)[n]? := by
  have h := nthNext_eq (Header.run ops) key n 0
  rw [List.drop_zero, run_values ops key hk] at h
  exact h hv

example := C13_iteration_lists_all_values [.add (bs "a") (bs "1"), .add (bs "b") (bs "2"), .add (bs "a") (bs "3")] (bs "a") (by decide)
  (by decide +kernel) 1

/-- C180: the walk stops at an empty value although more values follow. -/
theorem C180_iteration_stops_at_empty_value_violated :
    let ops : List Op := [.add (bs "Set-Cookie") [], .add (bs "Set-Cookie") (bs "a=b")]
    (Header.run ops).nthNext (bs "Set-Cookie") 0 0 = none ∧
    (Header.run ops).nthNext (bs "Set-Cookie") 0 1 = none ∧
    valuesOf (additions ops) (bs "Set-Cookie") = [[], bs "a=b"] := by
  decide +kernel

/-- C13: an addition under another name changes neither the value nor the list of values. -/
theorem C13_other_names_unaffected (ops : List Op) (key key' value : Bytes) (hk : key ≠ [])
    (hne : key' ≠ key) :
    (Header.run (ops ++ [.add key' value])).get key = (Header.run ops).get key ∧
    ∀ start, (Header.run (ops ++ [.add key' value])).find start key = (Header.run ops).find start key := by
  have e : (Header.run (ops ++ [.add key' value])) = (Header.run ops).add key' value := by
    simp [Header.run, Header.apply]
  have key2 : ∀ (l : List KV) (i : Nat), goFind key (l ++ [(key', value)]) i = goFind key l i := by
    intro l
    induction l with
    | nil => intro i; simp [goFind, hne]
    | cons p r ih => intro i; simp [goFind, ih]
  have hf : ∀ start, (Header.run (ops ++ [.add key' value])).find start key = (Header.run ops).find start key := by
    intro start
    rw [e]
    unfold Header.find
    rw [findLoop_eq, findLoop_eq]
    simp only [Header.add]
    by_cases hs : start ≤ (Header.run ops).lines.length
    · rw [List.drop_append_of_le_length hs, key2]
    · rw [List.drop_eq_nil_of_le (by simp; omega), List.drop_eq_nil_of_le (by omega)]
  exact ⟨by simp only [Header.get, hf], hf⟩

example := C13_other_names_unaffected [.add (bs "a") (bs "1")] (bs "a") (bs "b") (bs "2") (by decide) (by decide)

/-- The empty name reads as the empty string: the blank lines made by `Init` answer first. -/
theorem C180_empty_name_reads_empty :
    (Header.run [.add [] (bs "x")]).get [] = [] ∧
    firstValue (additions [.add [] (bs "x")]) [] = bs "x" := by decide +kernel

example : ∃ (ops : List Op) (key : Bytes), key ≠ [] ∧ (∀ v ∈ valuesOf (additions ops) key, v ≠ []) ∧
    (valuesOf (additions ops) key).length = 2 ∧ (Header.run ops).get key = bs "1" :=
  ⟨[.add (bs "a") (bs "0"), .reinit, .add (bs "a") (bs "1"), .add (bs "b") (bs "2"), .add (bs "a") (bs "3")],
    bs "a", by decide +kernel⟩

/-! ## C14 -/

theorem delLoop_eq (key : Bytes) (lines : List KV) (ln i : Nat) (h : ln ≤ lines.length) :
    delLoop key lines ln i = some lines := by
  fun_induction delLoop key lines ln i with
  | case1 lines ln i hi hn => rw [List.getElem?_eq_none_iff] at hn; omega
  | case2 lines ln i hi p hp hk hd => simp [slicesDelete] at hd; omega
  | case3 lines ln i hi p hp hk l' hd ih =>
    have : l' = lines := by
      simp only [slicesDelete] at hd
      split at hd
      · rw [List.take_append_drop] at hd; exact (Option.some.inj hd).symm
      · exact absurd hd (by simp)
    subst this
    exact ih (by omega)
  | case4 lines ln i hi p hp hk ih => exact ih h
  | case5 lines ln i hi => rfl

theorem setLoop_eq (key value : Bytes) (lines : List KV) (ln i : Nat) (set : Bool)
    (h : ln ≤ lines.length) : ∃ b, setLoop key value lines ln i set = some (lines, b) ∧
      (b = true ↔ set = true ∨ ∃ j, i ≤ j ∧ j < ln ∧ (lines[j]?.map (·.1)) = some key) := by
  fun_induction setLoop key value lines ln i set with
  | case1 lines ln i set hi hn => rw [List.getElem?_eq_none_iff] at hn; omega
  | case2 lines ln i set hi p hp hk hs ih =>
    obtain ⟨b, hb, hb2⟩ := ih h
    refine ⟨b, hb, ?_⟩
    rw [hb2]
    constructor
    · intro _; exact .inr ⟨i, Nat.le_refl _, hi, by simp [hp, hk]⟩
    · intro _; exact .inl rfl
  | case3 lines ln i set hi p hp hk hs hd => simp [slicesDelete] at hd; omega
  | case4 lines ln i set hi p hp hk hs l' hd ih =>
    have : l' = lines := by
      simp only [slicesDelete] at hd
      split at hd
      · rw [List.take_append_drop] at hd; exact (Option.some.inj hd).symm
      · exact absurd hd (by simp)
    subst this
    obtain ⟨b, hb, hb2⟩ := ih (by omega)
    refine ⟨b, hb, ?_⟩
    have hset : set = true := by simpa using hs
    rw [hb2, hset]; simp
  | case5 lines ln i set hi p hp hk ih =>
    obtain ⟨b, hb, hb2⟩ := ih h
    refine ⟨b, hb, ?_⟩
    rw [hb2]
    constructor
    · rintro (h | ⟨j, h1, h2, h3⟩)
      · exact .inl h
      · exact .inr ⟨j, by omega, h2, h3⟩
    · rintro (h | ⟨j, h1, h2, h3⟩)
      · exact .inl h
      · refine .inr ⟨j, ?_, h2, h3⟩
        rcases Nat.lt_or_ge i j with h4 | h4
        · omega
        · have : j = i := by omega
          subst this
          rw [hp] at h3; simp at h3; exact absurd h3 hk
  | case6 lines ln i set hi =>
    refine ⟨set, rfl, ?_⟩
    constructor
    · exact .inl
    · rintro (h | ⟨j, h1, h2, _⟩)
      · exact h
      · omega

/-- C14, what holds: deletion always terminates without panic — and never deletes anything.
Missing: that deleting deletes, and that setting a name that is there replaces its value
(refuted: `C14_set_does_not_replace_violated`, `C14_del_does_not_delete_violated`). -/
theorem C14_del_changes_nothing_partial (h : Header) (key : Bytes) : h.del key = some h := by
  unfold Header.del
  rw [delLoop_eq key h.lines h.lines.length 0 (Nat.le_refl _)]; rfl

/-- C14, what holds of deleting several names: nothing changes either.
Missing: that deleting deletes, and that setting a name that is there replaces its value
(refuted: `C14_set_does_not_replace_violated`, `C14_del_does_not_delete_violated`). -/
theorem C14_exclude_changes_nothing_partial (h : Header) (keys : List Bytes) : h.exclude keys = some h := by
  induction keys with
  | nil => rfl
  | cons k ks ih => simp [Header.exclude, C14_del_changes_nothing_partial, ih]

/-- C14, what holds of setting: it never panics, appends the pair when the name is absent, and
changes nothing when the name is present.
Missing: that deleting deletes, and that setting a name that is there replaces its value
(refuted: `C14_set_does_not_replace_violated`, `C14_del_does_not_delete_violated`). -/
theorem C14_set_exact_partial (h : Header) (key value : Bytes) :
    h.set key value = some (if ∃ p ∈ h.lines, p.1 = key then h else h.add key value) := by
  unfold Header.set
  obtain ⟨b, hb, hb2⟩ := setLoop_eq key value h.lines h.lines.length 0 false (Nat.le_refl _)
  rw [hb]
  simp only
  have iff : b = true ↔ ∃ p ∈ h.lines, p.1 = key := by
    rw [hb2]
    constructor
    · rintro (h | ⟨j, _, h2, h3⟩)
      · simp at h
      · rw [List.getElem?_eq_getElem h2] at h3
        exact ⟨h.lines[j], List.getElem_mem h2, by simpa using h3⟩
    · rintro ⟨p, hp, e⟩
      obtain ⟨j, hj, e2⟩ := List.getElem_of_mem hp
      exact .inr ⟨j, Nat.zero_le _, hj, by rw [List.getElem?_eq_getElem hj, e2, Option.map_some, e]⟩
  by_cases hp : ∃ p ∈ h.lines, p.1 = key
  · rw [if_pos hp, iff.mpr hp]; rfl
  · rw [if_neg hp]
    have : b = false := by cases b <;> simp_all
    rw [this]; rfl

/-- C14, the positive case: setting a name that is absent makes it read as the value, as its only
value, and leaves every other name alone.
Missing: that deleting deletes, and that setting a name that is there replaces its value
(refuted: `C14_set_does_not_replace_violated`, `C14_del_does_not_delete_violated`). -/
theorem C14_set_of_absent_partial (h : Header) (key value : Bytes)
    (habs : ∀ p ∈ h.lines, p.1 ≠ key) :
    ∃ h', h.set key value = some h' ∧ h'.get key = value ∧ valuesOf h'.lines key = [value] ∧
      ∀ k', k' ≠ key → h'.get k' = h.get k' ∧ valuesOf h'.lines k' = valuesOf h.lines k' := by
  have hn : ¬ ∃ p ∈ h.lines, p.1 = key := by rintro ⟨p, hp, e⟩; exact habs p hp e
  have hv : valuesOf h.lines key = [] := by
    simp only [valuesOf, List.filterMap_eq_nil_iff]
    intro p hp; rw [if_neg (habs p hp)]
  have hk : valuesOf (h.add key value).lines key = [value] := by
    rw [Header.add, valuesOf_append, hv]; simp [valuesOf]
  have ho : ∀ k', k' ≠ key → valuesOf (h.add key value).lines k' = valuesOf h.lines k' := by
    intro k' hne
    rw [Header.add, valuesOf_append]; simp [valuesOf, Ne.symm hne]
  refine ⟨h.add key value, by rw [C14_set_exact_partial, if_neg hn], ?_, hk, ?_⟩
  · rw [get_eq, firstValue, hk]; rfl
  · intro k' hne
    exact ⟨by rw [get_eq, get_eq, firstValue, ho k' hne]; rfl, ho k' hne⟩

example := C14_set_of_absent_partial ⟨[(bs "Host", bs "a.b")]⟩ (bs "Date") (bs "x") (by decide +kernel)

/-- C14 violated: for every header, name and two different values, setting the first and then the
second leaves the reader with the first. -/
theorem C14_set_does_not_replace_violated (h : Header) (key v w : Bytes) (hvw : v ≠ w)
    (habs : ∀ p ∈ h.lines, p.1 ≠ key) :
    ∃ h1 h2, h.set key v = some h1 ∧ h1.set key w = some h2 ∧ h2.get key = v ∧ h2.get key ≠ w := by
  obtain ⟨h1, e1, g1, v1, _⟩ := C14_set_of_absent_partial h key v habs
  have hp : ∃ p ∈ h1.lines, p.1 = key := by
    have hm : v ∈ valuesOf h1.lines key := by rw [v1]; exact List.mem_singleton.mpr rfl
    obtain ⟨p, hp, e⟩ := List.mem_filterMap.mp hm
    exact ⟨p, hp, by split at e <;> simp_all⟩
  exact ⟨h1, h1, e1, by rw [C14_set_exact_partial, if_pos hp], g1, by rw [g1]; exact hvw⟩

example := C14_set_does_not_replace_violated ⟨[(bs "Host", bs "a.b")]⟩ (bs "Date") (bs "x") (bs "y") (by decide) (by decide +kernel)

/-- C14 violated: for every header, deleting a name that has a value leaves the value readable. -/
theorem C14_del_does_not_delete_violated (h : Header) (key : Bytes) (hv : h.get key ≠ []) :
    ∃ h', h.del key = some h' ∧ h'.get key ≠ [] :=
  ⟨h, C14_del_changes_nothing_partial h key, hv⟩

example : (∀ p ∈ Header.init.lines, p.1 ≠ bs "A") ∧ bs "1" ≠ bs "2" ∧
    (Header.init.add (bs "A") (bs "1")).get (bs "A") ≠ [] := by decide +kernel

end Memar.Http
