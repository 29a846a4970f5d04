import Verif.Os.Props

/-!
# C273: what the application's directory lists
-/

namespace Memar.Os
open Memar

/-- The names of a map. -/
def namesIn (m : List (Bytes × Option Nat)) : List Bytes := m.map fun (e : Bytes × Option Nat) => e.1

theorem has_names (m : List (Bytes × Option Nat)) (k : Bytes) : has m k = true ↔ k ∈ namesIn m := by
  simp [has, namesIn]

theorem names_mapSet (m : List (Bytes × Option Nat)) (k : Bytes) (v : Option Nat) :
    namesIn (mapSet m k v) = if k ∈ namesIn m then namesIn m else namesIn m ++ [k] := by
  unfold mapSet
  by_cases h : k ∈ namesIn m
  · rw [if_pos ((has_names m k).2 h), if_pos h]
    unfold namesIn
    rw [List.map_map]
    refine List.map_congr_left fun e _ => ?_
    simp only [Function.comp]
    split
    · rename_i he; exact (eq_of_beq he).symm
    · rfl
  · rw [if_neg (fun h' => h ((has_names m k).1 h')), if_neg h]
    simp [namesIn]

theorem mem_names_mapSet (m : List (Bytes × Option Nat)) (k x : Bytes) (v : Option Nat) :
    x ∈ namesIn (mapSet m k v) ↔ x ∈ namesIn m ∨ x = k := by
  rw [names_mapSet]
  split
  · rename_i h; exact ⟨.inl, fun h' => h'.elim id fun e => e ▸ h⟩
  · simp

theorem nodup_mapSet (m : List (Bytes × Option Nat)) (k : Bytes) (v : Option Nat) (h : (namesIn m).Nodup) :
    (namesIn (mapSet m k v)).Nodup := by
  rw [names_mapSet]
  split
  · exact h
  · rename_i hk
    rw [List.nodup_append]
    exact ⟨h, by simp, fun a ha b hb => by simp only [List.mem_singleton] at hb; subst hb; exact fun e => hk (e ▸ ha)⟩

theorem fillMaps_names (es : List (Bytes × Bool)) (ds fs : List (Bytes × Option Nat)) (x : Bytes) :
    (x ∈ namesIn (fillMaps es ds fs).1 ↔ x ∈ namesIn ds ∨ (x, true) ∈ es) ∧
    (x ∈ namesIn (fillMaps es ds fs).2 ↔ x ∈ namesIn fs ∨ (x, false) ∈ es) := by
  induction es generalizing ds fs with
  | nil => simp [fillMaps]
  | cons e t ih =>
    obtain ⟨n, b⟩ := e
    unfold fillMaps
    cases b
    · simp only [Bool.false_eq_true, if_false, ih, mem_names_mapSet, List.mem_cons, Prod.mk.injEq, and_true, and_false,
        false_or, or_assoc, Bool.true_eq_false, and_self]
    · simp only [if_true, ih, mem_names_mapSet, List.mem_cons, Prod.mk.injEq, and_true, and_false, Bool.false_eq_true,
        false_or, or_assoc, and_self]

theorem fillMaps_nodup (es : List (Bytes × Bool)) (ds fs : List (Bytes × Option Nat)) (hd : (namesIn ds).Nodup)
    (hf : (namesIn fs).Nodup) : (namesIn (fillMaps es ds fs).1).Nodup ∧ (namesIn (fillMaps es ds fs).2).Nodup := by
  induction es generalizing ds fs with
  | nil => exact ⟨hd, hf⟩
  | cons e t ih =>
    obtain ⟨n, b⟩ := e
    unfold fillMaps
    split
    · exact ih _ _ (nodup_mapSet _ _ _ hd) hf
    · exact ih _ _ hd (nodup_mapSet _ _ _ hf)

/-- Every history keeps the directory, and adds to the calls only requests to make directories. -/
theorem run_dirs (o : Oracle) (ops : List Op) (w w' : World) (h : AllNil w) (hr : run o w ops = some w') :
    w'.dirs = w.dirs ∧ ∃ ps : List Bytes, w'.calls = w.calls ++ ps.map OsCall.mkdir := by
  induction ops generalizing w with
  | nil => simp only [run, Option.some.injEq] at hr; subst hr; exact ⟨rfl, [], by simp⟩
  | cons op ops ih =>
    simp only [run, Option.bind_eq_some_iff] at hr
    obtain ⟨w1, h1, h2⟩ := hr
    cases op with
    | directory n =>
      obtain ⟨w2, e, ha, hd, hc⟩ := directory_allNil o h n
      simp only [step, e, Option.map_some, Option.some.injEq] at h1
      subst h1
      obtain ⟨i1, ps, i2⟩ := ih w2 ha h2
      refine ⟨i1.trans hd, ?_⟩
      rcases hc with hc | ⟨p, hc⟩
      · exact ⟨ps, by rw [i2, hc]⟩
      · exact ⟨p :: ps, by rw [i2, hc]; simp⟩
    | file n =>
      simp only [step, file_allNil h n, Option.map_some, Option.some.injEq] at h1
      subst h1; exact ih w h h2
    | delete p => simp only [step, delete_allNil h p] at h1; simp at h1

/-- **C273**: after every history of calls, the directories the application's directory lists are exactly the names that
the operating system listed as directories when the application started, and the files are exactly the other names,
each once. When the operating system could not list them there are none. -/
theorem C273_listed (o : Oracle) (ops : List Op) (w : World) (h : run o (start o) ops = some w) :
    ∃ n, w.dirs[0]? = some n ∧ (n.dirs.map (·.1)).Nodup ∧ (n.files.map (·.1)).Nodup ∧
      ∀ name, (name ∈ n.dirs.map (·.1) ↔ ∃ es, o.readDir [] (bs "/") = some es ∧ (name, true) ∈ es) ∧
        (name ∈ n.files.map (·.1) ↔ ∃ es, o.readDir [] (bs "/") = some es ∧ (name, false) ∈ es) := by
  obtain ⟨hd, _⟩ := run_dirs o ops _ _ (start_allNil o) h
  rw [hd]
  unfold start dirInit
  dsimp only
  rw [show (zeroURI.init [ch '/']).path = bs "/" by decide +kernel]
  cases o.readDir ([] : List OsCall) (bs "/") with
  | none => exact ⟨_, rfl, by simp, by simp, by simp⟩
  | some es =>
    have hn := fillMaps_nodup es [] [] (by simp [namesIn]) (by simp [namesIn])
    refine ⟨_, rfl, hn.1, hn.2, fun name => ?_⟩
    have hm := fillMaps_names es [] [] name
    simp only [namesIn, List.map_nil, List.not_mem_nil, false_or] at hm
    simpa using hm

example := C273_listed exOracle [.directory (bs "x"), .file (bs "a.js"), .directory (bs "d")] _ rfl

/-- **C273**: the operating system is asked to list the directory once, first, and afterwards only to make directories. -/
theorem C273_asked_once (o : Oracle) (ops : List Op) (w : World) (h : run o (start o) ops = some w) :
    ∃ ps : List Bytes, w.calls = .readDir (bs "/") :: ps.map OsCall.mkdir := by
  obtain ⟨_, ps, hp⟩ := run_dirs o ops _ _ (start_allNil o) h
  refine ⟨ps, ?_⟩
  rw [hp]
  unfold start dirInit
  dsimp only
  rw [show (zeroURI.init [ch '/']).path = bs "/" by decide +kernel]
  cases o.readDir ([] : List OsCall) (bs "/") <;> rfl

example : ∃ w, run exOracle (start exOracle) [.directory (bs "x"), .file (bs "a.js"), .directory (bs "d")] = some w ∧
    (w.dirs.map fun (n : DirNode) => (n.dirs.map (·.1), n.files.map (·.1))) = [([bs "d"], [bs "a.js"])] :=
  ⟨_, rfl, by decide +kernel⟩

end Memar.Os
