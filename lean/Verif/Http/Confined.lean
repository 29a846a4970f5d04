import Verif.Http.ServeFiles

/-!
# Paths and names do not lead out of a directory: C314

The web handler together with the directories of the package `os/default` (`serveTree`, C312), and the directories made by name (`Os.directory`, C112).
-/

/-! ## Specification -/

namespace Memar.Http.Spec
open Memar

/-- The directory `e` is `d`, or is listed in a directory that is below `d`. -/
inductive Below (w : Os.World) (d : Nat) : Nat → Prop
  | here : Below w d d
  | down {e e' : Nat} {n : Os.DirNode} {name : Bytes} : Below w d e → w.dirs[e]? = some n → (name, some e') ∈ n.dirs → Below w d e'

/-- Two worlds have the same directories below `d`, and the same files in them. -/
def SameBelow (d : Nat) (w w' : Os.World) : Prop :=
  ∀ e, Below w d e → w.dirs[e]? = w'.dirs[e]? ∧ ∀ n name i, w.dirs[e]? = some n → (name, some i) ∈ n.files → w.files[i]? = w'.files[i]?

/-- The parts of a path between its slashes. -/
def segments : Bytes → List Bytes
  | [] => [[]]
  | b :: t =>
    if b = ch '/' then [] :: segments t
    else match segments t with
      | [] => [[b]]
      | s :: r => (b :: s) :: r

/-- Where one part of a path leads from a place, as the operating system reads it: nowhere for an empty part and a dot, up for two dots, and down otherwise. -/
def enter (place : List Bytes) (s : Bytes) : List Bytes :=
  if s = [] ∨ s = bs "." then place else if s = bs ".." then place.dropLast else place ++ [s]

/-- The place that a path names: the directories from the root on. Links are not looked at. -/
def place (path : Bytes) : List Bytes := (segments path).foldl enter []

end Memar.Http.Spec

namespace Memar.Http
open Memar Memar.Http.Spec

/-! ## Proofs -/

private theorem lookup_mem {m : List (Bytes × Option Nat)} {k : Bytes} {v : Nat} (h : Os.lookup m k = some v) : (k, some v) ∈ m := by
  unfold Os.lookup at h
  split at h
  · rename_i e he
    have h1 := List.mem_of_find?_eq_some he
    have h2 := List.find?_some he
    rcases e with ⟨a, b⟩
    simp only at h
    rw [h] at h1
    rw [beq_iff_eq] at h2
    simp only at h2
    rw [← h2]; exact h1
  · cases h

private theorem byParts_below {w : Os.World} {d : Nat} : ∀ (ps : List Bytes) (e t : Nat), Below w d e → Os.byParts w e ps = some (some t) → Below w d t
  | [], e, t, he, h => by cases h; exact he
  | p :: ps, e, t, he, h => by
    unfold Os.byParts at h
    split at h
    · cases h
    · rename_i n hn
      split at h
      · cases h
      · rename_i d' hd
        exact byParts_below ps d' t (.down he hn (lookup_mem hd)) h

private theorem splitLoop_ne (c : Byte) (before s : Bytes) : File.splitLoop c before s ≠ [] := by
  induction s generalizing before with
  | nil => simp [File.splitLoop]
  | cons x t ih => unfold File.splitLoop; split <;> simp [ih]

private theorem splitLoop_last (c : Byte) (before s : Bytes) (h : c ∉ before) :
    (File.splitLoop c before s).getLastD [] <:+ before ++ s ∧ c ∉ (File.splitLoop c before s).getLastD [] := by
  induction s generalizing before with
  | nil => simp [File.splitLoop, h]
  | cons x t ih =>
    unfold File.splitLoop
    by_cases hx : x = c
    · rw [if_pos hx]
      obtain ⟨h1, h2⟩ := ih [] (by simp)
      have : (before :: File.splitLoop c [] t).getLastD [] = (File.splitLoop c [] t).getLastD [] := by
        cases hs : File.splitLoop c [] t with
        | nil => exact absurd hs (splitLoop_ne c [] t)
        | cons a b => simp [List.getLastD]
      rw [this]
      exact ⟨h1.trans ⟨before ++ [x], by simp⟩, h2⟩
    · rw [if_neg hx]
      obtain ⟨h1, h2⟩ := ih (before ++ [x]) (by simp [h, Ne.symm hx])
      rw [List.append_assoc] at h1
      exact ⟨h1, h2⟩

private theorem fileByPath_below {w : Os.World} {d i : Nat} {path : Bytes} (h : Os.fileByPath w d path = some (some i)) :
    ∃ e n name, Below w d e ∧ w.dirs[e]? = some n ∧ (name, some i) ∈ n.files ∧ name <:+ path ∧ ch '/' ∉ name := by
  have hl := splitLoop_last (ch '/') [] path (by simp)
  rw [List.nil_append] at hl
  unfold Os.fileByPath at h
  simp only at h
  split at h
  · cases h
  · rename_i n hn
    split at h
    · simp only [Option.some.injEq] at h
      exact ⟨d, n, _, .here, hn, lookup_mem h, hl.1, hl.2⟩
    · split at h
      · cases h
      · cases h
      · rename_i d' hd
        split at h
        · cases h
        · rename_i n' hn'
          simp only [Option.some.injEq] at h
          exact ⟨d', n', _, byParts_below _ _ _ .here hd, hn', lookup_mem h, hl.1, hl.2⟩

private theorem byParts_same {w w' : Os.World} {d : Nat} (hs : SameBelow d w w') : ∀ (ps : List Bytes) (e : Nat), Below w d e → Os.byParts w e ps = Os.byParts w' e ps
  | [], e, _ => rfl
  | p :: ps, e, he => by
    unfold Os.byParts
    rw [← (hs e he).1]
    cases hn : w.dirs[e]? with
    | none => rfl
    | some n =>
      simp only
      cases hd : Os.lookup n.dirs p with
      | none => rfl
      | some d' => exact byParts_same hs ps d' (.down he hn (lookup_mem hd))

private theorem fileByPath_same {w w' : Os.World} {d : Nat} (hs : SameBelow d w w') (path : Bytes) : Os.fileByPath w d path = Os.fileByPath w' d path := by
  unfold Os.fileByPath
  simp only [← (hs d .here).1, ← byParts_same hs _ d .here]
  cases w.dirs[d]? with
  | none => rfl
  | some n =>
    simp only
    split
    · rfl
    · cases hb : Os.byParts w d (Os.dropRoot (File.split path (ch '/'))) with
      | none => rfl
      | some x =>
        cases x with
        | none => rfl
        | some t => simp only [← (hs t (byParts_below _ _ _ .here hb)).1]

private theorem serveTree_eq (w : Os.World) (d : Nat) (main : Os.Iface) (path : Bytes) (mt ce : Os.FileNode → Option Bytes) (version : Bytes) (r : Response) :
    serveTree w (.ptr (some d)) main path mt ce version r =
      (Os.fileByPath w d path).bind fun p => (serveWWW (E := Unit) (some (Os.Iface.ptr p)) (some main, none) r).bind fun x => sendFile w x.2.1 mt ce version x.1 := by
  simp only [serveTree, guiFile, Os.fileByPathI]
  cases Os.fileByPath w d path with
  | none => rfl
  | some p => simp only [Option.map_some, Option.bind_some, reduceCtorEq, if_false]

private theorem serve_found {f : Os.Iface} {main : Os.Iface} {r : Response} {x : Response × Os.Iface × Option Unit}
    (h : serveWWW (E := Unit) (some f) (some main, none) r = some x) : x.2.1 = f := by
  simp only [serveWWW] at h
  obtain ⟨r1, _, h⟩ := Option.bind_eq_some_iff.mp h
  cases h; rfl

/-- **C314**: whatever path is asked for, with dots and slashes in it, what the web handler sends is the content of a file listed below the directory it serves, under the name
that the path ends in. -/
theorem C314_served_from_below (w : Os.World) (d : Nat) (main : Os.Iface) (path : Bytes) (mt ce : Os.FileNode → Option Bytes) (version : Bytes) (r r' : Response)
    (body : Bytes) (h : serveTree w (.ptr (some d)) main path mt ce version r = some (r', body)) :
    ∃ e n name i f, Below w d e ∧ w.dirs[e]? = some n ∧ (name, some i) ∈ n.files ∧ name <:+ path ∧ ch '/' ∉ name ∧ w.files[i]? = some f ∧ body = f.data.getD [] := by
  rw [serveTree_eq] at h
  obtain ⟨p, hp, h⟩ := Option.bind_eq_some_iff.mp h
  obtain ⟨x, hx, h⟩ := Option.bind_eq_some_iff.mp h
  rw [serve_found hx] at h
  simp only [sendFile] at h
  obtain ⟨f, hf, h⟩ := Option.bind_eq_some_iff.mp h
  obtain ⟨l, _, h⟩ := Option.bind_eq_some_iff.mp h
  obtain ⟨r1, _, h⟩ := Option.bind_eq_some_iff.mp h
  obtain ⟨b, hb, hr⟩ := Option.map_eq_some_iff.mp h
  cases p with
  | none => cases hf
  | some i =>
    obtain ⟨e, n, name, h1, h2, h3, h4, h5⟩ := fileByPath_below hp
    refine ⟨e, n, name, i, f, h1, h2, h3, h4, h5, hf, ?_⟩
    simp only [Os.marshalTo, hf, Option.map_some, List.nil_append, Option.some.injEq] at hb
    rw [Prod.mk.injEq] at hr
    rw [← hr.2]; exact hb.symm

/-- **C314**: nothing outside the directory shows in any answer: two systems that have the same directories and files below the served directory answer every path alike, panics
included. -/
theorem C314_outside_does_not_show (w w' : Os.World) (d : Nat) (hs : SameBelow d w w') (main main' : Os.Iface) (path : Bytes) (mt ce : Os.FileNode → Option Bytes)
    (version : Bytes) (r : Response) :
    serveTree w (.ptr (some d)) main path mt ce version r = serveTree w' (.ptr (some d)) main' path mt ce version r := by
  rw [C312_main_page_unused_violated w' _ main' main, serveTree_eq, serveTree_eq, ← fileByPath_same hs path]
  cases hp : Os.fileByPath w d path with
  | none => rfl
  | some p =>
    simp only [Option.bind_some]
    cases hx : serveWWW (E := Unit) (some (Os.Iface.ptr p)) (some main, none) r with
    | none => rfl
    | some x =>
      simp only [Option.bind_some, serve_found hx, sendFile]
      cases p with
      | none => rfl
      | some i =>
        obtain ⟨e, n, name, h1, h2, h3, _, _⟩ := fileByPath_below hp
        have hi := (hs e h1).2 n name i h2 h3
        simp only [Os.deref, Os.len, Os.marshalTo, hi]

private theorem segments_ne (s : Bytes) : segments s ≠ [] := by
  cases s with
  | nil => simp [segments]
  | cons b t => unfold segments; split; · simp
                split <;> simp

private theorem segments_slash (a b : Bytes) : segments (a ++ ch '/' :: b) = segments a ++ segments b := by
  induction a with
  | nil => simp [segments]
  | cons x t ih =>
    rw [List.cons_append, segments, segments, ih]
    by_cases hx : x = ch '/'
    · rw [if_pos hx, if_pos hx]; rfl
    · rw [if_neg hx, if_neg hx]
      cases hs : segments t with
      | nil => exact absurd hs (segments_ne t)
      | cons s r => rfl

private theorem segments_name (s : Bytes) (h : ch '/' ∉ s) : segments s = [s] := by
  induction s with
  | nil => rfl
  | cons x t ih =>
    unfold segments
    rw [if_neg (by intro e; exact h (by simp [e])), ih (by intro e; exact h (by simp [e]))]

private theorem place_in (path name : Bytes) : place (path ++ [ch '/'] ++ name ++ [ch '/']) = (segments name).foldl enter (place path) := by
  unfold place
  rw [show path ++ [ch '/'] ++ name ++ [ch '/'] = path ++ ch '/' :: (name ++ ch '/' :: []) by simp, segments_slash, segments_slash]
  simp only [List.foldl_append, segments, List.foldl_cons, List.foldl_nil]
  simp [enter]

/-- **C314**, the part that holds of making: a directory asked for by a name that is one part of a path, and not made of one or two dots, is made in the directory it is asked of
and nowhere else; nothing else is asked of the operating system. Missing: other names (refuted: `C314_made_beside_violated`, `C314_made_above_violated`). -/
theorem C314_made_inside_partial (o : Os.Oracle) (w w' : Os.World) (d : Nat) (n : Os.DirNode) (hn : w.dirs[d]? = some n) (name : Bytes) (i : Os.Iface)
    (h : Os.directory o w d name = some (w', i)) (hs : ch '/' ∉ name) (h0 : name ≠ []) (h1 : name ≠ bs ".") (h2 : name ≠ bs "..") :
    w'.calls = w.calls ∨ ∃ p, w'.calls = w.calls ++ [.mkdir p] ∧ place p = place n.uri.path ++ [name] := by
  rw [Os.C112_mkdir_partial o w d n hn name w' i h]
  split
  · exact .inl (by simp)
  · refine .inr ⟨_, rfl, ?_⟩
    rw [place_in, segments_name name hs]
    simp [enter, h0, h1, h2]

/-- C314 violated: a directory asked for by name is made in the directory it is asked of. Asked for two dots, a slash and any name, every directory has one made beside itself,
unless it knows the text as the name of a directory. -/
theorem C314_made_beside_violated (o : Os.Oracle) (w w' : Os.World) (d : Nat) (n : Os.DirNode) (hn : w.dirs[d]? = some n) (x : Bytes) (i : Os.Iface)
    (h : Os.directory o w d (bs "../" ++ x) = some (w', i)) (hs : ch '/' ∉ x) (h0 : x ≠ []) (h1 : x ≠ bs ".") (h2 : x ≠ bs "..")
    (hnew : bs "../" ++ x ∉ n.dirs.map (·.1)) :
    ∃ p, w'.calls = w.calls ++ [.mkdir p] ∧ place p = (place n.uri.path).dropLast ++ [x] := by
  rw [Os.C112_mkdir_partial o w d n hn _ w' i h, if_neg hnew]
  refine ⟨_, rfl, ?_⟩
  rw [place_in, show bs "../" ++ x = bs ".." ++ ch '/' :: x from rfl, segments_slash, segments_name x hs, segments_name (bs "..") (by decide)]
  simp only [List.foldl_append, List.foldl_cons, List.foldl_nil]
  simp only [enter, h0, h1, h2, or_self, if_false]
  rw [if_neg (by decide), if_pos trivial]

/-- C314 violated: a directory asked for by name is another one than those above it. Asked for two dots, every directory has its own parent made, unless it knows the text as the
name of a directory. -/
theorem C314_made_above_violated (o : Os.Oracle) (w w' : Os.World) (d : Nat) (n : Os.DirNode) (hn : w.dirs[d]? = some n) (i : Os.Iface)
    (h : Os.directory o w d (bs "..") = some (w', i)) (hnew : bs ".." ∉ n.dirs.map (·.1)) :
    ∃ p, w'.calls = w.calls ++ [.mkdir p] ∧ place p = (place n.uri.path).dropLast := by
  rw [Os.C112_mkdir_partial o w d n hn _ w' i h, if_neg hnew]
  refine ⟨_, rfl, ?_⟩
  rw [place_in, segments_name (bs "..") (by decide)]
  simp only [List.foldl_cons, List.foldl_nil, enter]
  rw [if_neg (by decide), if_pos trivial]

/-! ## Non-vacuity -/

private def exTree : Os.World :=
  ⟨[⟨⟨bs "/", [], []⟩, none, [(bs "gui", some 1)], [(bs "key", some 0)]⟩, ⟨⟨bs "/gui", [], []⟩, some 0, [(bs "a", some 2)], [(bs "f", some 1)]⟩,
    ⟨⟨bs "/gui/a", [], []⟩, some 1, [(bs "g", some 2)], [(bs "g", some 2)]⟩],
   [⟨⟨bs "/", bs "key", []⟩, some 0, [], [], some (bs "secret")⟩, ⟨⟨bs "/gui/", bs "f", []⟩, some 1, [], [], some (bs "page")⟩,
    ⟨⟨bs "/gui/a/", bs "g", []⟩, some 2, [], [], some (bs "deep")⟩], []⟩

private def exOther : Os.World := { exTree with files := exTree.files.set 0 ⟨⟨bs "/", bs "key", []⟩, some 0, [], [], some (bs "another")⟩ }

private def exSend (path : Bytes) := serveTree exTree (.ptr (some 1)) .nil path (fun n => some n.mediaOf) (fun _ => none) (bs "HTTP/1.1") Response.init

private theorem exSent : (exSend (bs "/a/g")).isSome := by decide +kernel

example := C314_served_from_below exTree 1 .nil (bs "/a/g") (fun n => some n.mediaOf) (fun _ => none) (bs "HTTP/1.1") Response.init ((exSend (bs "/a/g")).get exSent).1
  ((exSend (bs "/a/g")).get exSent).2 (Option.some_get exSent).symm
example : (exSend (bs "/a/g")).map (·.2) = some (bs "deep") ∧ exSend (bs "/../key") = none ∧ exSend (bs "../key") = none := by decide +kernel

private theorem exBelow {e : Nat} (h : Below exTree 1 e) : e = 1 ∨ e = 2 := by
  induction h with
  | here => exact .inl rfl
  | down hb hn hm ih =>
    rcases ih with rfl | rfl
    · cases hn; simp at hm; exact .inr hm.2
    · cases hn; simp at hm; exact .inr hm.2

example := C314_outside_does_not_show exTree exOther 1
  (by
    intro e he
    rcases exBelow he with rfl | rfl
    · refine ⟨rfl, fun n name i hn hm => ?_⟩
      cases hn; simp at hm; rw [hm.2]; rfl
    · refine ⟨rfl, fun n name i hn hm => ?_⟩
      cases hn; simp at hm; rw [hm.2]; rfl) .nil .nil (bs "/../key")

private theorem exMade (name : Bytes) : (Os.directory Os.exOracle exTree 1 name).isSome := by
  unfold Os.directory
  rw [show exTree.dirs[1]? = some ⟨⟨bs "/gui", [], []⟩, some 0, [(bs "a", some 2)], [(bs "f", some 1)]⟩ from rfl]
  simp only
  split
  · rfl
  · split <;> rfl

example := C314_made_inside_partial Os.exOracle exTree _ 1 _ rfl (bs "new") _ (Option.some_get (exMade (bs "new"))).symm (by decide) (by decide) (by decide) (by decide)
example := C314_made_beside_violated Os.exOracle exTree _ 1 _ rfl (bs "new") _ (Option.some_get (exMade (bs "../new"))).symm (by decide) (by decide) (by decide) (by decide)
  (by decide)
example := C314_made_above_violated Os.exOracle exTree _ 1 _ rfl _ (Option.some_get (exMade (bs ".."))).symm (by decide)
example : place (bs "/gui/./a//b/../c") = [bs "gui", bs "a", bs "c"] := by decide +kernel

end Memar.Http
