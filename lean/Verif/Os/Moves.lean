import Verif.Os.Props

/-!
# Renaming, copying, moving, wiping and hiding in `os/default`, and the network multiplexers of the operating systems
(C169, C170)
-/

namespace Memar.Os
open Memar.File

/-! ## Model -/

/-- os/default/file-directory.go:189-192: `Rename` of a path; `true` is an answer without an error. -/
def renamePath (w : World) (_d : Nat) (_old _new : Bytes) : World × Bool := (w, true)

/-- os/default/file-directory.go:194-206: `Copy`; the body is a comment. -/
def copyPath (w : World) (_d : Nat) (_old _new : Bytes) : World × Bool := (w, true)

/-- os/default/file-directory.go:208-221: `Move`; the body is a comment. -/
def movePath (w : World) (_d : Nat) (_old _new : Bytes) : World × Bool := (w, true)

/-- os/default/file-directory.go:235-239: `Wipe`. -/
def wipe (w : World) (d : Nat) (path : Bytes) : World × Option World := delete w d path

/-- os/default/file-directory.go:29-32: `Directories`. -/
def directoriesOf (_n : DirNode) (_offset _limit : U64) : List Iface := []

/-- os/default/file-meta-data.go:25: `Hidden`, of the metadata of a file or of a directory; `none` is a panic (index out
of range). -/
def hidden (u : URI) : Option Bool := u.name.head?.map (· == ch '.')

/-! ## Properties -/

/-- **C169** violated for `Rename`, `Copy` and `Move`: each answers without an error and asks nothing of the operating
system.  A file that was found under the old path is still found there, a new path that led to no file still leads to
none, and no file changed. -/
theorem C169_move_violated (w : World) (d : Nat) (old new : Bytes) (i : Nat) (h : fileByPath w d old = some (some i))
    (hn : fileByPath w d new = some none) (f : World → Nat → Bytes → Bytes → World × Bool)
    (hf : f = renamePath ∨ f = copyPath ∨ f = movePath) :
    (f w d old new).2 = true ∧ (f w d old new).1.calls = w.calls ∧
      fileByPath (f w d old new).1 d old = some (some i) ∧ fileByPath (f w d old new).1 d new = some none := by
  rcases hf with rfl | rfl | rfl <;> exact ⟨rfl, rfl, h, hn⟩

/-- A directory that holds the file `a`. -/
def oneFile : World := ⟨[⟨⟨bs "/", [], []⟩, none, [], [(bs "a", some 0)]⟩],
  [⟨⟨[], bs "a", []⟩, some 0, [], [], some (bs "text")⟩], []⟩

example : fileByPath oneFile 0 (bs "a") = some (some 0) ∧ fileByPath oneFile 0 (bs "b") = some none := by
  decide +kernel

/-- **C169** violated for `Rename`, `Copy` and `Move` of a path that leads nowhere: no error tells so. -/
theorem C169_missing_violated (w : World) (d : Nat) (old new : Bytes) (h : fileByPath w d old = some none)
    (f : World → Nat → Bytes → Bytes → World × Bool) (hf : f = renamePath ∨ f = copyPath ∨ f = movePath) :
    (f w d old new).2 = true ∧ fileByPath (f w d old new).1 d old = some none := by
  rcases hf with rfl | rfl | rfl <;> exact ⟨rfl, h⟩

example : fileByPath oneFile 0 (bs "c") = some none := by decide +kernel

/-- **C169** violated for `Wipe`: the contents of the file are never written over.  Wiping asks the operating system for
one thing, the removal of the path. -/
theorem C169_wipe_violated (w : World) (d : Nat) (path : Bytes) (data : Bytes) (w' : World)
    (h : w' = (wipe w d path).1 ∨ (wipe w d path).2 = some w') :
    w'.calls = w.calls ++ [.remove path] ∧
    (.writeFile path data ∈ w'.calls → OsCall.writeFile path data ∈ w.calls) := by
  have hc : w'.calls = w.calls ++ [.remove path] := by
    rcases h with rfl | h
    · rfl
    · unfold wipe delete at h
      dsimp only at h
      repeat' split at h
      all_goals first
        | (simp only [Option.some.injEq] at h; subst h; rfl)
        | cases h
  refine ⟨hc, fun hm => ?_⟩
  rw [hc, List.mem_append, List.mem_singleton] at hm
  rcases hm with hm | hm
  · exact hm
  · cases hm

example : ((wipe oneFile 0 (bs "a")).2.map (·.calls)) = some [.remove (bs "a")] := by decide +kernel

/-- **C169** (partial: the data stays on the disk): when wiping does not panic, the file is no longer found in its
directory.
Missing: overwriting the contents (refuted: `C169_wipe_violated`). -/
theorem C169_wipe_partial (w : World) (path : Bytes) (hp : ch '/' ∉ path) (n : DirNode) (d i : Nat) (fn : FileNode)
    (hd : w.dirs[d]? = some n) (hn : lookup n.files path = some i) (hi : w.files[i]? = some fn)
    (hpar : fn.parent = some d) (hname : fn.uri.name = path) (hne : path ≠ []) :
    ∃ w', (wipe w d path).2 = some w' ∧ ∃ n', w'.dirs[d]? = some n' ∧ lookup n'.files path = none ∧
      ∀ k, k ≠ path → lookup n'.files k = lookup n.files k := by
  have hsplit : split path (ch '/') = [path] := by
    have := split_join (ch '/') [path] (by simp) (by simpa using hp)
    simpa [List.intercalate] using this
  have hdir : isPathDirectory path = some false := by
    unfold isPathDirectory
    cases hl : path.getLast? with
    | none => rw [List.getLast?_eq_none_iff] at hl; exact absurd hl hne
    | some c =>
      have : c ≠ ch '/' := fun e => hp (e ▸ List.mem_of_getLast? hl)
      simp [this]
  have hfind : fileByPath { w with calls := w.calls ++ [.remove path] } d path = some (some i) := by
    unfold fileByPath
    simp [hsplit, hd, hn]
  have hlt : d < w.dirs.length := (List.getElem?_eq_some_iff.1 hd).1
  have hlook : ∀ (m : List (Bytes × Option Nat)) (k : Bytes), lookup (mapDelete m path) k =
      if k = path then none else lookup m k := by
    intro m k
    induction m with
    | nil => simp [mapDelete, lookup_nil]
    | cons e t ih =>
      obtain ⟨k', v⟩ := e
      unfold mapDelete at ih ⊢
      rw [List.filter_cons, lookup_cons]
      by_cases hk : k' = path
      · subst hk
        simp only [bne_self_eq_false, Bool.false_eq_true, if_false]
        rw [ih]
        by_cases h2 : k = k'
        · simp [h2]
        · rw [if_neg h2, if_neg h2, if_neg (fun e => h2 e.symm)]
      · have hb : ((k', v).1 != path) = true := by simpa using hk
        rw [if_pos hb, lookup_cons, ih]
        by_cases h2 : k' = k
        · subst h2; simp [hk]
        · simp [h2]
  refine ⟨setFiles { w with calls := w.calls ++ [.remove path] } d (mapDelete n.files path), ?_, ?_⟩
  · unfold wipe delete
    dsimp only
    simp [hdir, hfind, hi, hpar, hd, hname]
  · refine ⟨{ n with files := mapDelete n.files path }, ?_, ?_, ?_⟩
    · have he : w.dirs[d] = n := by
        have := List.getElem?_eq_getElem hlt
        rw [hd] at this
        exact (Option.some.inj this).symm
      unfold setFiles
      simp [hlt, he]
    · simp only [hlook, if_true]
    · intro k hk
      simp only [hlook, if_neg hk]

example : ((wipe oneFile 0 (bs "a")).2.map fun w => w.dirs.map (·.files)) = some [[]] := by decide +kernel

/-- **C169** violated for `Directories`: whatever the directory holds and whatever is asked for, none is listed. -/
theorem C169_directories_violated (n : DirNode) (offset limit : U64) (h : n.dirs ≠ []) :
    directoriesOf n offset limit = [] ∧ (directoriesOf n offset limit).length ≠ n.dirs.length := by
  refine ⟨rfl, fun e => h ?_⟩
  exact List.length_eq_zero_iff.1 e.symm

example : (⟨zeroURI, none, [(bs "d", none)], []⟩ : DirNode).dirs ≠ [] := by decide

/-- **C169** (partial: not for paths that end with a slash): a path is hidden exactly when what follows its last slash
begins with a dot.
Missing: directories, the paths of which end with a slash (refuted: `C169_hidden_directory_violated`). -/
theorem C169_hidden_partial (dir name : Bytes) (c : Byte) (u : URI) (h : ch '/' ∉ c :: name)
    (hdir : dir = [] ∨ ∃ a, dir = a ++ [ch '/']) :
    hidden (u.init (dir ++ c :: name)) = some (decide (c = ch '.')) := by
  have hn : (u.init (dir ++ c :: name)).name = c :: name := by
    rcases hdir with rfl | ⟨a, rfl⟩
    · simp only [URI.init, URI.rename, filepathSplit, List.nil_append, (lastIndexByte_none_iff _ _).2 h]
    · rw [show a ++ [ch '/'] ++ c :: name = a ++ ch '/' :: c :: name by simp]
      simp only [URI.init, URI.rename, filepathSplit, lastIndexByte_append a _ _ h]
      rw [show a ++ ch '/' :: c :: name = (a ++ [ch '/']) ++ c :: name by simp, List.drop_left' (by simp)]
  rw [hidden, hn]
  simp only [List.head?_cons, Option.map_some]
  rfl

example : hidden (zeroURI.init (bs "/etc/.profile")) = some true ∧ hidden (zeroURI.init (bs "a.b")) = some false := by
  decide +kernel

/-- **C169** violated for every directory: the path a directory is made with ends with a slash, so its name is empty and
asking whether it is hidden panics. -/
theorem C169_hidden_directory_violated (o : Oracle) (w : World) (d : DirNode) (parent name : Bytes) :
    hidden (dirInit o w d (parent ++ [ch '/'] ++ name ++ [ch '/'])).1.uri = none := by
  have hu : ∀ p, (dirInit o w d p).1.uri = d.uri.init p := by
    intro p; unfold dirInit; dsimp only; split <;> rfl
  rw [hu, hidden]
  simp only [URI.init, URI.rename, filepathSplit]
  rw [show parent ++ [ch '/'] ++ name ++ [ch '/'] = (parent ++ [ch '/'] ++ name) ++ ch '/' :: [] by simp,
    lastIndexByte_append _ [] _ (by simp)]
  dsimp only
  rw [List.drop_eq_nil_of_le (by simp only [List.length_append, List.length_cons, List.length_nil]; omega)]
  rfl

example : (dirInit exOracle ⟨[], [], []⟩ ⟨zeroURI, none, [], []⟩ (bs "/x/")).1.uri.path = bs "/x/" := by decide +kernel

/-! ## Network multiplexers of the operating systems -/

/-- What the application does with the operating system: it registers a multiplexer, or shuts the system down. -/
inductive NetOp where
  | register (mux : Nat)
  | shutdown
  deriving DecidableEq, Repr

/-- os/default/network-transport-multiplexer.go:14-17 `RegisterNetworkTransportMultiplexer`: the list of multiplexers. -/
def registerMux (muxes : List Nat) (m : Nat) : List Nat := muxes ++ [m]

/-- os/default/network-transport-multiplexer.go:19-23 `shutdown`: the loop from index `i` on, with the shutdowns it makes. -/
def shutdownLoop (muxes : List Nat) : Nat → Nat → List Nat
  | 0, _ => []
  | fuel + 1, i =>
    match muxes[i]? with
    | none => []
    | some m => m :: shutdownLoop muxes fuel (i + 1)

/-- os/default/network-transport-multiplexer.go:19-23 `shutdown`. -/
def shutdownMuxes (muxes : List Nat) : List Nat := shutdownLoop muxes muxes.length 0

/-- One call; the log is the list of multiplexers told to shut down.  os/default/os.go:48-50: `Shutdown` has an empty
body. -/
def netStep : List Nat × List Nat → NetOp → List Nat × List Nat
  | (muxes, log), .register m => (registerMux muxes m, log)
  | (muxes, log), .shutdown => (muxes, log)

/-- The multiplexers registered in a history, in order. -/
def Spec.registered (h : List NetOp) : List Nat :=
  h.filterMap fun (o : NetOp) => match o with | .register m => some m | .shutdown => none

theorem netRun_fst (h : List NetOp) (s : List Nat × List Nat) :
    (h.foldl netStep s).1 = s.1 ++ Spec.registered h ∧ (h.foldl netStep s).2 = s.2 := by
  induction h generalizing s with
  | nil => simp [Spec.registered]
  | cons o t ih =>
    obtain ⟨m, l⟩ := s
    cases o with
    | register x =>
      obtain ⟨a, b⟩ := ih (registerMux m x, l)
      rw [List.foldl_cons]
      simp only [netStep]
      rw [a, b]
      simp [Spec.registered, registerMux]
    | shutdown =>
      obtain ⟨a, b⟩ := ih (m, l)
      rw [List.foldl_cons]
      simp only [netStep]
      rw [a, b]
      simp [Spec.registered]

theorem shutdownLoop_eq (muxes : List Nat) (fuel i : Nat) (h : muxes.length ≤ fuel + i) :
    shutdownLoop muxes fuel i = muxes.drop i := by
  induction fuel generalizing i with
  | zero => rw [shutdownLoop, List.drop_eq_nil_of_le (by omega)]
  | succ n ih =>
    rw [shutdownLoop]
    cases hm : muxes[i]? with
    | none => rw [List.getElem?_eq_none_iff] at hm; rw [List.drop_eq_nil_of_le hm]
    | some m =>
      obtain ⟨hl, he⟩ := List.getElem?_eq_some_iff.1 hm
      dsimp only
      rw [ih (i + 1) (by omega), List.drop_eq_getElem_cons hl, he]

/-- **C170** (partial: of the shutdown routine of the network, not of the one an application can call): after every
history, the routine shuts every multiplexer down that was registered, once per registration and in that order.
Missing: the shutdown an application can call (refuted: `C170_never_called_violated`). -/
theorem C170_shutdown_partial (h : List NetOp) :
    shutdownMuxes (h.foldl netStep ([], [])).1 = Spec.registered h := by
  rw [(netRun_fst h _).1, shutdownMuxes, shutdownLoop_eq _ _ _ (by simp)]
  simp

example : shutdownMuxes ([NetOp.register 3, .shutdown, .register 1].foldl netStep ([], [])).1 = [3, 1] := by decide

/-- **C170** violated for `Shutdown` of the operating system: whatever was registered before, no multiplexer is told to
shut down. -/
theorem C170_never_called_violated (h : List NetOp) (m : Nat) (hm : NetOp.register m ∈ h) :
    (((h ++ [NetOp.shutdown]).foldl netStep ([], [])).2 = []) ∧ m ∈ Spec.registered (h ++ [NetOp.shutdown]) := by
  refine ⟨(netRun_fst _ _).2, ?_⟩
  simp only [Spec.registered, List.mem_filterMap, List.mem_append]
  exact ⟨_, .inl hm, rfl⟩

example : NetOp.register 3 ∈ [NetOp.register 3] := by decide

/-- The multiplexers known to the two networks of `persiaos` (os/persiaos/os.go:23-24). -/
structure PersiaNet where
  gp : List Nat
  ipv4 : List Nat
  deriving DecidableEq, Repr

/-- os/persiaos/network-transport-multiplexer.go:6-13 `RegisterNetworkTransportMultiplexer`; `gpID` and `ipv4ID` are the
two constants of the protocol, `header` is the header the multiplexer answers. -/
def persiaRegister (gpID ipv4ID : Nat) (s : PersiaNet) (header mux : Nat) : PersiaNet :=
  if header = gpID then { s with gp := s.gp ++ [mux] }
  else if header = ipv4ID then { s with ipv4 := s.ipv4 ++ [mux] }
  else s

theorem persia_run (gpID ipv4ID : Nat) (hne : gpID ≠ ipv4ID) (rs : List (Nat × Nat)) (s : PersiaNet) :
    (rs.foldl (fun s (r : Nat × Nat) => persiaRegister gpID ipv4ID s r.1 r.2) s) =
      ⟨s.gp ++ (rs.filter fun (r : Nat × Nat) => r.1 == gpID).map (·.2),
        s.ipv4 ++ (rs.filter fun (r : Nat × Nat) => r.1 == ipv4ID).map (·.2)⟩ := by
  induction rs generalizing s with
  | nil => simp
  | cons r t ih =>
    obtain ⟨h, m⟩ := r
    rw [List.foldl_cons, ih]
    unfold persiaRegister
    by_cases h1 : h = gpID
    · subst h1
      simp [hne]
    · by_cases h2 : h = ipv4ID
      · subst h2
        simp [h1]
      · simp [h1, h2]

/-- **C170** (partial: only for GP and IPv4): each network knows, in order, exactly the multiplexers registered for its
header.
Missing: other headers (refuted: `C170_other_header_violated`). -/
theorem C170_registered_partial (gpID ipv4ID : Nat) (hne : gpID ≠ ipv4ID) (rs : List (Nat × Nat)) :
    (rs.foldl (fun s (r : Nat × Nat) => persiaRegister gpID ipv4ID s r.1 r.2) ⟨[], []⟩).gp =
      (rs.filter fun (r : Nat × Nat) => r.1 == gpID).map (·.2) ∧
    (rs.foldl (fun s (r : Nat × Nat) => persiaRegister gpID ipv4ID s r.1 r.2) ⟨[], []⟩).ipv4 =
      (rs.filter fun (r : Nat × Nat) => r.1 == ipv4ID).map (·.2) := by
  rw [persia_run gpID ipv4ID hne]
  simp

example : ([(1, 7), (2, 8), (1, 9)].foldl (fun s (r : Nat × Nat) => persiaRegister 1 2 s r.1 r.2) ⟨[], []⟩) =
    (⟨[7, 9], [8]⟩ : PersiaNet) := by decide

/-- **C170** violated for every other header, as that of IPv6: the multiplexer is registered nowhere, and no error tells
so. -/
theorem C170_other_header_violated (gpID ipv4ID header mux : Nat) (s : PersiaNet) (h1 : header ≠ gpID)
    (h2 : header ≠ ipv4ID) (hg : mux ∉ s.gp) (hi : mux ∉ s.ipv4) :
    mux ∉ (persiaRegister gpID ipv4ID s header mux).gp ∧ mux ∉ (persiaRegister gpID ipv4ID s header mux).ipv4 := by
  rw [persiaRegister, if_neg h1, if_neg h2]
  exact ⟨hg, hi⟩

example : (3 : Nat) ≠ 1 ∧ (3 : Nat) ≠ 2 ∧ (5 : Nat) ∉ (⟨[7], []⟩ : PersiaNet).gp := by decide

end Memar.Os
