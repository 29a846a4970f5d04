import Verif.Os.Model
import Verif.File.Props

/-!
# Properties of the application's files and directories (C112–C115)
-/

namespace Memar.Os
open Memar.File

/-! ## Maps -/

theorem lookup_cons (k' : Bytes) (v : Option Nat) (m : List (Bytes × Option Nat)) (k : Bytes) :
    lookup ((k', v) :: m) k = if k' = k then v else lookup m k := by
  unfold lookup
  rw [List.find?_cons]
  by_cases h : k' = k
  · simp [h]
  · have hb : (k' == k) = false := by simpa using h
    simp [h, hb]

theorem lookup_nil (k : Bytes) : lookup [] k = none := rfl

theorem lookup_none {m : List (Bytes × Option Nat)} (h : ∀ e ∈ m, e.2 = none) (k : Bytes) : lookup m k = none := by
  induction m with
  | nil => rfl
  | cons e t ih =>
    obtain ⟨k', v⟩ := e
    rw [lookup_cons]
    have := h (k', v) (by simp)
    simp only at this
    split
    · exact this
    · exact ih fun e he => h e (List.mem_cons_of_mem _ he)

/-- With distinct keys, a look-up finds exactly what the map holds. -/
theorem lookup_iff {m : List (Bytes × Option Nat)} (hn : (m.map (·.1)).Nodup) (k : Bytes) (i : Nat) :
    lookup m k = some i ↔ (k, some i) ∈ m := by
  induction m with
  | nil => simp [lookup_nil]
  | cons e t ih =>
    obtain ⟨k', v⟩ := e
    simp only [List.map_cons, List.nodup_cons, List.mem_map, not_exists, not_and] at hn
    rw [lookup_cons, List.mem_cons, Prod.mk.injEq]
    by_cases h : k' = k
    · subst h
      rw [if_pos rfl]
      constructor
      · intro h; exact .inl ⟨rfl, h.symm⟩
      · rintro (⟨_, h⟩ | h)
        · exact h.symm
        · exact absurd rfl (hn.1 _ h)
    · rw [if_neg h, ih hn.2]
      constructor
      · exact .inr
      · rintro (⟨h', _⟩ | h')
        · exact absurd h'.symm h
        · exact h'

theorem has_iff (m : List (Bytes × Option Nat)) (k : Bytes) : has m k = true ↔ k ∈ m.map (·.1) := by
  simp [has]

theorem mem_mapSet_none {m : List (Bytes × Option Nat)} (h : ∀ e ∈ m, e.2 = none) (k : Bytes) :
    ∀ e ∈ mapSet m k none, e.2 = none := by
  intro e he
  unfold mapSet at he
  split at he
  · simp only [List.mem_map] at he
    obtain ⟨x, hx, rfl⟩ := he
    split
    · rfl
    · exact h x hx
  · rcases List.mem_append.1 he with he | he
    · exact h e he
    · simp only [List.mem_singleton] at he; subst he; rfl

theorem fillMaps_none (es : List (Bytes × Bool)) (ds fs : List (Bytes × Option Nat)) (hd : ∀ e ∈ ds, e.2 = none)
    (hf : ∀ e ∈ fs, e.2 = none) :
    (∀ e ∈ (fillMaps es ds fs).1, e.2 = none) ∧ (∀ e ∈ (fillMaps es ds fs).2, e.2 = none) := by
  induction es generalizing ds fs with
  | nil => exact ⟨hd, hf⟩
  | cons e t ih =>
    obtain ⟨n, b⟩ := e
    unfold fillMaps
    split
    · exact ih _ _ (mem_mapSet_none hd n) hf
    · exact ih _ _ hd (mem_mapSet_none hf n)

/-! ## C112: objects obtained from the application's directory -/

/-- Reachable worlds: one directory, no file object, and only nil pointers in the maps. -/
def AllNil (w : World) : Prop :=
  w.files = [] ∧ ∃ n, w.dirs = [n] ∧ (∀ e ∈ n.dirs, e.2 = none) ∧ (∀ e ∈ n.files, e.2 = none)

theorem start_allNil (o : Oracle) : AllNil (start o) := by
  unfold start dirInit
  dsimp only
  cases o.readDir ([] : List OsCall) (zeroURI.init [ch '/']).path with
  | none => exact ⟨rfl, _, rfl, by simp, by simp⟩
  | some es =>
    refine ⟨rfl, _, rfl, ?_⟩
    exact fillMaps_none es [] [] (by simp) (by simp)

theorem file_allNil {w : World} (h : AllNil w) (name : Bytes) : file w 0 name = some (w, .ptr none) := by
  obtain ⟨_, n, hd, _, hf⟩ := h
  unfold file
  rw [hd]
  simp [lookup_none hf name]

theorem directory_allNil (o : Oracle) {w : World} (h : AllNil w) (name : Bytes) :
    ∃ w', directory o w 0 name = some (w', .ptr none) ∧ AllNil w' ∧ w'.dirs = w.dirs ∧
      (w'.calls = w.calls ∨ ∃ p, w'.calls = w.calls ++ [.mkdir p]) := by
  obtain ⟨hf0, n, hd, hdn, hf⟩ := h
  unfold directory
  rw [hd]
  simp only [List.getElem?_cons_zero, lookup_none hdn name]
  cases hh : has n.dirs name
  · simp only [Bool.not_false, Bool.true_and, Bool.false_eq_true, if_false, reduceCtorEq]
    refine ⟨{ w with calls := w.calls ++ [.mkdir (n.uri.path ++ [ch '/'] ++ name ++ [ch '/'])] }, ?_, ?_, ?_, ?_⟩
    · split <;> rw [← hd]
    · exact ⟨hf0, n, hd, hdn, hf⟩
    · exact hd
    · exact .inr ⟨_, rfl⟩
  · simp only [Bool.not_true, Bool.false_and, Bool.false_eq_true, if_false, if_true, reduceCtorEq]
    exact ⟨w, rfl, ⟨hf0, n, hd, hdn, hf⟩, hd, .inl rfl⟩

theorem byParts_allNil {w : World} (h : AllNil w) (ps : List Bytes) (hne : ps ≠ []) : byParts w 0 ps = some none := by
  obtain ⟨_, n, hd, hdn, _⟩ := h
  cases ps with
  | nil => exact absurd rfl hne
  | cons p ps => simp [byParts, hd, lookup_none hdn p]

theorem fileByPath_allNil {w : World} (h : AllNil w) (p : Bytes) : fileByPath w 0 p = some none := by
  have h' := h
  obtain ⟨_, n, hd, hdn, hf⟩ := h
  unfold fileByPath
  rw [hd]
  simp only [List.getElem?_cons_zero, lookup_none hf]
  split
  · rfl
  · rename_i hl
    have hne : dropRoot (split p (ch '/')) ≠ [] := by
      cases hs : split p (ch '/') with
      | nil => rw [hs] at hl; simp at hl
      | cons a t =>
        rw [hs] at hl
        show (if a = [] then t else a :: t) ≠ []
        split
        · intro e; rw [e] at hl; simp at hl
        · simp
    rw [byParts_allNil h' _ hne]

theorem isPathDirectory_split (p : Bytes) (h : isPathDirectory p = some true) :
    ∃ q, p = q ++ [ch '/'] := by
  unfold isPathDirectory at h
  simp only [Option.map_eq_some_iff, beq_iff_eq] at h
  obtain ⟨a, ha, rfl⟩ := h
  obtain ⟨l, hl⟩ := List.getLast?_eq_some_iff.1 ha
  exact ⟨l, hl⟩

theorem splitLoop_slash (q b : Bytes) : ∃ l, l ≠ [] ∧ splitLoop (ch '/') b (q ++ [ch '/']) = l ++ [[]] := by
  induction q generalizing b with
  | nil => exact ⟨[b], by simp, by simp [splitLoop]⟩
  | cons x t ih =>
    rw [List.cons_append, splitLoop]
    split
    · obtain ⟨l, _, hl⟩ := ih []
      exact ⟨b :: l, by simp, by rw [hl]; rfl⟩
    · exact ih _

theorem dropRoot_slash (q : Bytes) : ∃ l, dropRoot (split (q ++ [ch '/']) (ch '/')) = l ++ [[]] := by
  obtain ⟨l, hl, e⟩ := splitLoop_slash q []
  rw [split, e]
  cases l with
  | nil => exact absurd rfl hl
  | cons a t =>
    show ∃ l, (if a = [] then t ++ [[]] else (a :: t) ++ [[]]) = _
    split
    · exact ⟨t, rfl⟩
    · exact ⟨a :: t, rfl⟩

theorem delete_allNil {w : World} (h : AllNil w) (p : Bytes) : (delete w 0 p).2 = none := by
  have hw : AllNil { w with calls := w.calls ++ [.remove p] } := h
  unfold delete
  dsimp only
  cases hd : isPathDirectory p with
  | none => rfl
  | some b =>
    cases b with
    | false => simp only [fileByPath_allNil hw]
    | true =>
      obtain ⟨q, rfl⟩ := isPathDirectory_split p hd
      obtain ⟨l, hl⟩ := dropRoot_slash q
      have : directoryByPath { w with calls := w.calls ++ [.remove (q ++ [ch '/'])] } 0 (q ++ [ch '/']) = some none := by
        unfold directoryByPath
        rw [hl]
        exact byParts_allNil hw _ (by simp)
      simp only [this]

theorem run_allNil (o : Oracle) (ops : List Op) (w w' : World) (h : AllNil w) (hr : run o w ops = some w') :
    AllNil w' := by
  induction ops generalizing w with
  | nil => simp only [run, Option.some.injEq] at hr; subst hr; exact h
  | cons op ops ih =>
    simp only [run, Option.bind_eq_some_iff] at hr
    obtain ⟨w1, h1, h2⟩ := hr
    refine ih w1 ?_ h2
    cases op with
    | directory n =>
      obtain ⟨w2, e, ha, _⟩ := directory_allNil o h n
      simp only [step, e, Option.map_some, Option.some.injEq] at h1
      subst h1; exact ha
    | file n =>
      simp only [step, file_allNil h n, Option.map_some, Option.some.injEq] at h1
      subst h1; exact h
    | delete p => simp only [step, delete_allNil h p] at h1; simp at h1

/-- C112 violated: a file asked for by name can be used, whether it existed or is made new. Here, after every history of
calls and whatever the operating system answers, `File` returns an interface that is not nil and holds no file: every
operation on it panics, nothing is made, and the directory is unchanged. -/
theorem C112_file_unusable_violated (o : Oracle) (ops : List Op) (w : World) (h : run o (start o) ops = some w)
    (name data : Bytes) (plain : Bool) :
    ∃ p, file w 0 name = some (w, .ptr p) ∧ Iface.ptr p ≠ Iface.nil ∧
      save w p = none ∧ marshal o w p = none ∧ unmarshal w p data = none ∧ append w p data = none ∧
      prepend w p data = none ∧ rename w p data = none ∧ len w p = none ∧ writeTo w p = none ∧
      readFrom w p plain data = none := by
  have ha := run_allNil o ops _ _ (start_allNil o) h
  exact ⟨none, file_allNil ha name, by simp, rfl, rfl, rfl, rfl, rfl, rfl, rfl, rfl, rfl⟩

/-- C112 violated: a directory asked for by name can be used. Here, after every history, `Directory` returns an interface
that is not nil and holds no directory, and the list of known directories never changes. -/
theorem C112_directory_unusable_violated (o : Oracle) (ops : List Op) (w : World) (h : run o (start o) ops = some w)
    (name : Bytes) :
    ∃ w', directory o w 0 name = some (w', .ptr none) ∧ Iface.ptr none ≠ Iface.nil ∧ w'.dirs = w.dirs ∧ w'.files = w.files := by
  have ha := run_allNil o ops _ _ (start_allNil o) h
  obtain ⟨w', e, ha', hd, _⟩ := directory_allNil o ha name
  exact ⟨w', e, by simp, hd, by rw [ha.1, ha'.1]⟩

/-- **C112** (partial: of making a directory, only the request to the operating system holds): `Directory` asks the
operating system to make the directory exactly when the name is not known, under the path of its parent.
Missing: an object that can be used, made once only (refuted: `C112_directory_unusable_violated`, `C112_mkdir_again_violated`). -/
theorem C112_mkdir_partial (o : Oracle) (w : World) (d : Nat) (n : DirNode) (hn : w.dirs[d]? = some n) (name : Bytes)
    (w' : World) (i : Iface) (h : directory o w d name = some (w', i)) :
    w'.calls = w.calls ++ (if name ∈ n.dirs.map (·.1) then []
      else [.mkdir (n.uri.path ++ [ch '/'] ++ name ++ [ch '/'])]) := by
  unfold directory at h
  rw [hn] at h
  dsimp only at h
  by_cases hh : has n.dirs name = true
  · rw [if_pos ((has_iff _ _).1 hh)]
    simp only [hh, Bool.not_true, Bool.false_and, Bool.false_eq_true, if_false, if_true, reduceCtorEq, Option.some.injEq,
      Prod.mk.injEq] at h
    rw [← h.1]; simp
  · rw [if_neg (fun e => hh ((has_iff _ _).2 e))]
    have hh' : has n.dirs name = false := by simpa using hh
    simp only [hh', Bool.not_false, Bool.true_and, Bool.false_eq_true, if_false, reduceCtorEq] at h
    split at h <;> simp only [Option.some.injEq, Prod.mk.injEq] at h <;> rw [← h.1]

/-- C112 violated: a directory is made once. Here a new name is made again at every call, because it is never recorded. -/
theorem C112_mkdir_again_violated (o : Oracle) (ops : List Op) (w : World) (h : run o (start o) ops = some w)
    (n : DirNode) (hn : w.dirs[0]? = some n) (name : Bytes) (hname : name ∉ n.dirs.map (·.1)) :
    ∃ w1 w2 i j, directory o w 0 name = some (w1, i) ∧ directory o w1 0 name = some (w2, j) ∧
      w2.calls = w.calls ++ [.mkdir (n.uri.path ++ [ch '/'] ++ name ++ [ch '/']),
        .mkdir (n.uri.path ++ [ch '/'] ++ name ++ [ch '/'])] := by
  have ha := run_allNil o ops _ _ (start_allNil o) h
  obtain ⟨w1, e1, ha1, hd1, _⟩ := directory_allNil o ha name
  obtain ⟨w2, e2, _, _, _⟩ := directory_allNil o ha1 name
  refine ⟨w1, w2, _, _, e1, e2, ?_⟩
  rw [C112_mkdir_partial o w1 0 n (by rw [hd1]; exact hn) name w2 _ e2,
    C112_mkdir_partial o w 0 n hn name w1 _ e1]
  simp [hname]

theorem foldl_none {α β} (l : List α) (f : Option (Option β) → α → Option (Option β)) (hf : ∀ a, f none a = none) :
    l.foldl f none = none := by
  induction l with
  | nil => rfl
  | cons a t ih => rw [List.foldl_cons, hf, ih]

/-- C112 violated: a search in all directories answers. Here, after every history, the search for a file panics as soon as
the root has a directory on disk, and finds nothing otherwise; the order in which the map is visited does not matter. -/
theorem C112_search_violated (o : Oracle) (ops : List Op) (w : World) (h : run o (start o) ops = some w)
    (order : List (Bytes × Option Nat) → List (Bytes × Option Nat)) (ho : ∀ l, (order l).Perm l) (part : Bytes) (fuel : Nat)
    (n : DirNode) (hn : w.dirs[0]? = some n) :
    findRec w order part (fuel + 1) (some 0) = (if n.dirs = [] then some none else none) ∧
    depRec w order part (fuel + 1) (some 0) =
      (if n.dirs = [] ∨ part ∈ n.dirs.map (·.1) then some none else none) := by
  have ha := run_allNil o ops _ _ (start_allNil o) h
  obtain ⟨_, n', hd, hdn, hf⟩ := ha
  rw [hd] at hn
  simp only [List.getElem?_cons_zero, Option.some.injEq] at hn
  subst hn
  have hnil : order [] = [] := List.perm_nil.1 (ho [])
  have hcons : n'.dirs ≠ [] → ∃ k t, order n'.dirs = (k, none) :: t := by
    intro hne
    cases hq : order n'.dirs with
    | nil => have := ho n'.dirs; rw [hq] at this; exact absurd (List.nil_perm.1 this) hne
    | cons e t =>
      have : e ∈ n'.dirs := (ho n'.dirs).subset (by rw [hq]; simp)
      exact ⟨e.1, t, by rw [← hdn e this]⟩
  constructor
  · unfold findRec
    simp only [hd, List.getElem?_cons_zero, lookup_none hf part]
    by_cases hne : n'.dirs = []
    · rw [if_pos hne, hne, hnil]; rfl
    · rw [if_neg hne]
      obtain ⟨k, t, e⟩ := hcons hne
      rw [e, List.foldl_cons]
      have : findRec w order part fuel none = none := by cases fuel <;> rfl
      simp only [this]
      exact foldl_none _ _ fun _ => rfl
  · unfold depRec
    simp only [hd, List.getElem?_cons_zero, lookup_none hdn part]
    by_cases hm : part ∈ n'.dirs.map (·.1)
    · rw [if_pos ((has_iff _ _).2 hm), if_pos (.inr hm)]
    · rw [if_neg (fun e => hm ((has_iff _ _).1 e))]
      by_cases hne : n'.dirs = []
      · rw [if_pos (.inl hne), hne, hnil]; rfl
      · rw [if_neg (by simp only [not_or]; exact ⟨hne, hm⟩)]
        obtain ⟨k, t, e⟩ := hcons hne
        rw [e, List.foldl_cons]
        have : depRec w order part fuel none = none := by cases fuel <;> rfl
        simp only [this]
        exact foldl_none _ _ fun _ => rfl

/-- C112 violated: deleting removes the object. Here, after every history, `Delete` of any path first asks the operating
system to remove it and then panics. -/
theorem C112_delete_panics_violated (o : Oracle) (ops : List Op) (w : World) (h : run o (start o) ops = some w)
    (p : Bytes) : (delete w 0 p).1.calls = w.calls ++ [.remove p] ∧ (delete w 0 p).2 = none :=
  ⟨rfl, delete_allNil (run_allNil o ops _ _ (start_allNil o) h) p⟩

/-- An operating system whose root holds the file `a.js` and the directory `d`, and where every call succeeds. -/
def exOracle : Oracle := ⟨fun _ _ => true, fun _ _ => some [(bs "a.js", false), (bs "d", true)], fun _ _ => []⟩

example : ∃ w, run exOracle (start exOracle) [.directory (bs "x"), .file (bs "a.js")] = some w ∧
    w.calls = [.readDir (bs "/"), .mkdir (bs "//x/")] := ⟨_, rfl, by decide⟩

/-! ## C113: look-up by path -/

/-- Specification: following the named directories from `d` leads to `t`. -/
inductive Spec.Leads (w : World) : Nat → List Bytes → Nat → Prop
  | here (d) : Spec.Leads w d [] d
  | down (d n p d' ps t) : w.dirs[d]? = some n → (p, some d') ∈ n.dirs → Spec.Leads w d' ps t → Spec.Leads w d (p :: ps) t

/-- Specification: a well-formed world: distinct names in every directory, and no pointer to nowhere. -/
def Spec.WF (w : World) : Prop :=
  ∀ n ∈ w.dirs, (n.dirs.map (·.1)).Nodup ∧ (n.files.map (·.1)).Nodup ∧ ∀ p i, (p, some i) ∈ n.dirs → i < w.dirs.length

/-- **C113**: looking up a directory by its list of names finds exactly the directory the names lead to. -/
theorem C113_directory_parts (w : World) (hw : Spec.WF w) (ps : List Bytes) (d t : Nat) (hd : d < w.dirs.length) :
    byParts w d ps = some (some t) ↔ Spec.Leads w d ps t := by
  induction ps generalizing d with
  | nil =>
    simp only [byParts, Option.some.injEq]
    constructor
    · rintro rfl; exact .here _
    · intro h; cases h; rfl
  | cons p ps ih =>
    have hn : w.dirs[d]? = some w.dirs[d] := List.getElem?_eq_getElem hd
    obtain ⟨hu, _, hb⟩ := hw w.dirs[d] (List.getElem_mem hd)
    simp only [byParts, hn]
    cases hl : lookup w.dirs[d].dirs p with
    | none =>
      simp only [Option.some.injEq, reduceCtorEq, false_iff]
      intro h
      cases h with
      | down _ n _ d' _ _ h1 h2 h3 =>
        rw [hn, Option.some.injEq] at h1; subst h1
        rw [(lookup_iff hu p d').2 h2] at hl; cases hl
    | some d' =>
      have hm := (lookup_iff hu p d').1 hl
      simp only
      rw [ih d' (hb _ _ hm)]
      constructor
      · exact fun h => .down _ _ _ _ _ _ hn hm h
      · intro h
        cases h with
        | down _ n _ d'' _ _ h1 h2 h3 =>
          rw [hn, Option.some.injEq] at h1; subst h1
          rw [(lookup_iff hu p d'').2 h2] at hl
          cases hl; exact h3

/-- **C113**: a look-up by names never panics in a well-formed world: it finds a directory or says there is none. -/
theorem C113_no_panic (w : World) (hw : Spec.WF w) (ps : List Bytes) (d : Nat) (hd : d < w.dirs.length) :
    ∃ r, byParts w d ps = some r ∧ ∀ t, r = some t → t < w.dirs.length := by
  induction ps generalizing d with
  | nil => exact ⟨some d, rfl, by simp; exact hd⟩
  | cons p ps ih =>
    have hn : w.dirs[d]? = some w.dirs[d] := List.getElem?_eq_getElem hd
    obtain ⟨hu, _, hb⟩ := hw w.dirs[d] (List.getElem_mem hd)
    simp only [byParts, hn]
    cases hl : lookup w.dirs[d].dirs p with
    | none => exact ⟨none, rfl, by simp⟩
    | some d' => exact ih d' (hb _ _ ((lookup_iff hu p d').1 hl))

theorem getLastD_append (l : List Bytes) (x a : Bytes) : (l ++ [x]).getLastD a = x := by simp

theorem Leads_snoc {w : World} {ps : List Bytes} {d t : Nat} {p : Bytes} (h : Spec.Leads w d (ps ++ [p]) t) :
    ∃ s n, Spec.Leads w d ps s ∧ w.dirs[s]? = some n ∧ (p, some t) ∈ n.dirs := by
  induction ps generalizing d with
  | nil =>
    cases h with
    | down _ n _ d' _ _ h1 h2 h3 => cases h3; exact ⟨d, n, .here _, h1, h2⟩
  | cons q qs ih =>
    cases h with
    | down _ n _ d' _ _ h1 h2 h3 =>
      obtain ⟨s, m, hs, hm, hp⟩ := ih h3
      exact ⟨s, m, .down _ _ _ _ _ _ h1 h2 hs, hm, hp⟩

theorem Leads_unique {w : World} (hw : Spec.WF w) {ps : List Bytes} {d s t : Nat} (h : Spec.Leads w d ps s)
    (h' : Spec.Leads w d ps t) : s = t := by
  induction h with
  | here d => cases h'; rfl
  | down d n p d' ps s h1 h2 h3 ih =>
    cases h' with
    | down _ n' _ d'' _ _ h1' h2' h3' =>
      rw [h1, Option.some.injEq] at h1'; subst h1'
      obtain ⟨hu, _, _⟩ := hw n (List.mem_of_getElem? h1)
      have e1 := (lookup_iff hu p d').2 h2
      have e2 := (lookup_iff hu p d'').2 h2'
      rw [e1] at e2; cases e2
      exact ih h3'

/-- C262 violated: the file at `ps/f`, two or more directories deep, is found by its path. Here it is never found when the
directory holds no directory with the name of the file: the look-up follows the file name as a directory. -/
theorem C262_nested_file_violated (w : World) (hw : Spec.WF w) (d t : Nat) (ps : List Bytes) (f : Bytes) (i : Nat)
    (n : DirNode) (hd : d < w.dirs.length) (hlen : 2 ≤ ps.length) (hs : ∀ p ∈ ps, p ≠ [] ∧ ch '/' ∉ p) (hf : ch '/' ∉ f)
    (hl : Spec.Leads w d ps t) (hn : w.dirs[t]? = some n) (_hfile : (f, some i) ∈ n.files)
    (hno : ∀ j, (f, some j) ∉ n.dirs) :
    fileByPath w d (List.intercalate [ch '/'] (ps ++ [f])) = some none := by
  have hsp : split (List.intercalate [ch '/'] (ps ++ [f])) (ch '/') = ps ++ [f] := by
    apply split_join _ _ (by simp)
    intro x hx
    rcases List.mem_append.1 hx with hx | hx
    · exact (hs x hx).2
    · simp only [List.mem_singleton] at hx; subst hx; exact hf
  unfold fileByPath
  rw [hsp, List.getElem?_eq_getElem hd]
  dsimp only
  rw [if_neg (by simp; omega)]
  have hdr : dropRoot (ps ++ [f]) = ps ++ [f] := by
    cases ps with
    | nil => simp at hlen
    | cons p ps => exact if_neg (hs p (by simp)).1
  rw [hdr]
  obtain ⟨r, hr, _⟩ := C113_no_panic w hw (ps ++ [f]) d hd
  cases r with
  | none => simp only [hr]
  | some u =>
    obtain ⟨s, m, h1, h2, h3⟩ := Leads_snoc ((C113_directory_parts w hw _ d u hd).1 hr)
    have := Leads_unique hw h1 hl
    subst this
    rw [hn, Option.some.injEq] at h2; subst h2
    exact absurd h3 (hno u)

/-- C262 violated: `dir/f` is the file `f` of the directory `dir`. Here the directory is ignored, whatever its name, and the
answer is the file `f` of the directory asked. -/
theorem C262_one_directory_violated (w : World) (d : Nat) (p f : Bytes) (hp : ch '/' ∉ p) (hf : ch '/' ∉ f) :
    fileByPath w d (p ++ [ch '/'] ++ f) = fileByPath w d f := by
  have e1 : split (p ++ [ch '/'] ++ f) (ch '/') = [p, f] := by
    have := split_join (ch '/') [p, f] (by simp) (by simp [hp, hf])
    simpa [List.intercalate] using this
  have e2 : split f (ch '/') = [f] := by
    have := split_join (ch '/') [f] (by simp) (by simp [hf])
    simpa [List.intercalate] using this
  unfold fileByPath
  rw [e1, e2]
  rfl

/-- **C262** (partial: only files of the directory itself): a name without a slash finds exactly the file of that name.
Missing: paths through directories and paths that end with a slash (refuted: `C262_nested_file_violated`, `C262_one_directory_violated`, `C262_slash_violated`). -/
theorem C262_plain_name_partial (w : World) (hw : Spec.WF w) (d : Nat) (n : DirNode) (hn : w.dirs[d]? = some n) (f : Bytes)
    (hf : ch '/' ∉ f) (i : Nat) : fileByPathI w d f = some (.ptr (some i)) ↔ (f, some i) ∈ n.files := by
  have e2 : split f (ch '/') = [f] := by
    have := split_join (ch '/') [f] (by simp) (by simp [hf])
    simpa [List.intercalate] using this
  unfold fileByPathI fileByPath
  rw [e2, hn]
  simp only [List.length_cons, List.length_nil, Nat.zero_add, Nat.reduceLT, if_true, List.getLastD_cons,
    Option.map_some, Option.some.injEq, Iface.ptr.injEq]
  exact lookup_iff (hw n (List.mem_of_getElem? hn)).2.1 f i

/-- C262 violated: the path of a directory, which ends with a slash, finds that directory. Here it finds nothing unless some
directory has an empty name; `Delete` recognises a directory by that very slash. -/
theorem C262_slash_violated (w : World) (hw : Spec.WF w) (d : Nat) (hd : d < w.dirs.length) (q : Bytes)
    (hno : ∀ n ∈ w.dirs, [] ∉ n.dirs.map (·.1)) :
    directoryByPath w d (q ++ [ch '/']) = some none := by
  unfold directoryByPath
  obtain ⟨l, hl⟩ := dropRoot_slash q
  rw [hl]
  obtain ⟨r, hr, _⟩ := C113_no_panic w hw (l ++ [[]]) d hd
  cases r with
  | none => exact hr
  | some u =>
    obtain ⟨s, m, h1, h2, h3⟩ := Leads_snoc ((C113_directory_parts w hw _ d u hd).1 hr)
    exact absurd (List.mem_map.2 ⟨_, h3, rfl⟩) (hno m (List.mem_of_getElem? h2))

/-- A world with directories `/a` and `/a/b`, and the file `f` in both the root and `/a/b`. -/
def exWorld : World :=
  ⟨[⟨zeroURI, none, [(bs "a", some 1)], [(bs "f", some 0)]⟩, ⟨zeroURI, some 0, [(bs "b", some 2)], []⟩,
    ⟨zeroURI, some 1, [], [(bs "f", some 1)]⟩],
   [⟨⟨bs "/", bs "f", []⟩, some 0, [], [], none⟩, ⟨⟨bs "/a/b/", bs "f", []⟩, some 2, [], [], none⟩], []⟩

example : fileByPath exWorld 0 (bs "a/b/f") = some none ∧ fileByPath exWorld 0 (bs "x/f") = some (some 0) ∧
    directoryByPath exWorld 0 (bs "/a/b") = some (some 2) ∧ directoryByPath exWorld 0 (bs "/a/b/") = some none := by
  decide +kernel
example : Spec.WF exWorld := by
  intro n hn
  simp only [exWorld, List.mem_cons, List.not_mem_nil, or_false] at hn
  rcases hn with h | h | h <;> subst h <;> refine ⟨by decide, by decide, ?_⟩ <;> intro p i hp <;> simp at hp <;>
    (try obtain ⟨_, rfl⟩ := hp) <;> decide

theorem exWorld_wf : Spec.WF exWorld := by
  intro n hn
  simp only [exWorld, List.mem_cons, List.not_mem_nil, or_false] at hn
  rcases hn with h | h | h <;> subst h <;> refine ⟨by decide, by decide, ?_⟩ <;> intro p i hp <;> simp at hp <;>
    (try obtain ⟨_, rfl⟩ := hp) <;> decide

/-- The root directory after one directory was made. -/
def exRun : Option World := run exOracle (start exOracle) [.directory (bs "x"), .file (bs "a.js")]
theorem exRun_some : exRun.isSome := by decide +kernel
theorem exRun_eq : run exOracle (start exOracle) [.directory (bs "x"), .file (bs "a.js")] = some (exRun.get exRun_some) :=
  (Option.some_get exRun_some).symm

example := C112_file_unusable_violated exOracle _ _ exRun_eq (bs "a.js") (bs "data") true
example := C112_directory_unusable_violated exOracle _ _ exRun_eq (bs "x")
theorem exMade : (directory exOracle exWorld 0 (bs "y")).isSome := by decide +kernel

example := C112_mkdir_partial exOracle exWorld 0 _ rfl (bs "y") ((directory exOracle exWorld 0 (bs "y")).get exMade).1
  ((directory exOracle exWorld 0 (bs "y")).get exMade).2 (Option.some_get exMade).symm
theorem exRoot : (exRun.get exRun_some).dirs[0]?.isSome := by decide +kernel

example := C112_mkdir_again_violated exOracle _ _ exRun_eq _ (Option.some_get exRoot).symm (bs "y") (by decide +kernel)
example := C112_search_violated exOracle _ _ exRun_eq List.reverse List.reverse_perm (bs "a") 3 _ (Option.some_get exRoot).symm
example := C113_directory_parts exWorld exWorld_wf [bs "a", bs "b"] 0 2 (by decide)
example := C113_no_panic exWorld exWorld_wf [bs "a", bs "x"] 0 (by decide)
example := C262_nested_file_violated exWorld exWorld_wf 0 2 [bs "a", bs "b"] (bs "f") 1 _ (by decide) (by decide) (by decide) (by decide)
  (.down 0 _ _ 1 _ _ rfl (by simp) (.down 1 _ _ 2 _ _ rfl (by simp) (.here 2))) rfl (by simp) (by simp)
example := C262_one_directory_violated exWorld 0 (bs "x") (bs "f") (by decide) (by decide)
example := C262_plain_name_partial exWorld exWorld_wf 0 _ rfl (bs "f") (by decide) 0

end Memar.Os
