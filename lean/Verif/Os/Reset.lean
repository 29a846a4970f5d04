import Verif.Os.Props2

/-!
# A file over its history, and reset to what is stored: C311

`www/combine.go:161` calls `Unmarshal(nil)` "to reset file to storage state to undo extract import from file". `Verif/Os/Model.lean` has `Unmarshal` of slices that are not
nil; here is the other case, and whole histories of calls on one file.
-/

namespace Memar.Os
open Memar.File

/-! ## Model -/

/-- os/default/file.go:197-201: `Unmarshal` of the nil slice. -/
def unmarshalNil (w : World) (f : Option Nat) : Option World :=
  match f, deref w f with
  | some i, some n => some (setFile w i { n with data := none })
  | _, _ => none

/-- A call on a file (os/default/file.go:37-46,81-83,126-159,168-176,197-201,211-216). -/
inductive FileOp where
  /-- `Unmarshal` of a slice that is not nil -/
  | set (data : Bytes)
  /-- `Unmarshal(nil)` -/
  | reset
  | append (data : Bytes)
  | prepend (data : Bytes)
  | save
  /-- `Replace`: some bytes by others, at most `k` times -/
  | replace (old new : Bytes) (k : Int)
  /-- `ReadFrom` and `Decode`: a reader that gives these bytes and then ends or fails; `plain`: it cannot write itself into a buffer -/
  | readFrom (plain : Bool) (got : Bytes)
  deriving DecidableEq, Repr

/-- `bytes.Replace` (standard library) as a parameter: `none` is the nil slice. -/
abbrev Repl := Option Bytes → Bytes → Bytes → Int → Option Bytes

/-- os/default/file.go:37-46,81-83,126-159,168-176,197-201,211-216: one call on the file `i`; `none` is a panic. Contents are values: that slices may share memory is left out. -/
def fileStep (repl : Repl) (w : World) (i : Nat) : FileOp → Option World
  | .set d => unmarshal w (some i) d
  | .reset => unmarshalNil w (some i)
  | .append d => append w (some i) d
  | .prepend d => prepend w (some i) d
  | .save => save w (some i)
  | .replace old new k => replace repl w (some i) old new k
  | .readFrom plain got => readFrom w (some i) plain got

/-- os/default/file.go:37-46,81-83,126-159,168-176,197-201,211-216: a history of calls on the file `i`, one after another. -/
def fileRun (repl : Repl) (w : World) (i : Nat) : List FileOp → Option World
  | [] => some w
  | op :: ops => (fileStep repl w i op).bind fun w' => fileRun repl w' i ops

/-! ## Specification -/

/-- Specification: the content that is kept in memory after the calls; `none` is a file that is as it is on the disk. -/
def Spec.kept (repl : Repl) : Option Bytes → List FileOp → Option Bytes
  | c, [] => c
  | _, .set d :: ops => Spec.kept repl (some d) ops
  | _, .reset :: ops => Spec.kept repl none ops
  | some c, .append d :: ops => Spec.kept repl (some (c ++ d)) ops
  | some c, .prepend d :: ops => Spec.kept repl (some (d ++ c)) ops
  | none, .append _ :: ops => Spec.kept repl none ops
  | none, .prepend _ :: ops => Spec.kept repl none ops
  | c, .save :: ops => Spec.kept repl c ops
  | c, .replace old new k :: ops => Spec.kept repl (repl c old new k) ops
  | _, .readFrom true got :: ops => Spec.kept repl (some got) ops
  | _, .readFrom false [] :: ops => Spec.kept repl none ops
  | _, .readFrom false (b :: got) :: ops => Spec.kept repl (some (b :: got)) ops

/-- Specification: what is written to the disk by the calls, when the file is at `path`. -/
def Spec.written (repl : Repl) (path : Bytes) : Option Bytes → List FileOp → List OsCall
  | _, [] => []
  | _, .set d :: ops => Spec.written repl path (some d) ops
  | _, .reset :: ops => Spec.written repl path none ops
  | some c, .append d :: ops => Spec.written repl path (some (c ++ d)) ops
  | some c, .prepend d :: ops => Spec.written repl path (some (d ++ c)) ops
  | none, .append d :: ops => .appendFile [] d :: Spec.written repl path none ops
  | none, .prepend _ :: ops => Spec.written repl path none ops
  | some c, .save :: ops => .writeFile path c :: Spec.written repl path (some c) ops
  | none, .save :: ops => Spec.written repl path none ops
  | c, .replace old new k :: ops => Spec.written repl path (repl c old new k) ops
  | _, .readFrom true got :: ops => Spec.written repl path (some got) ops
  | _, .readFrom false [] :: ops => Spec.written repl path none ops
  | _, .readFrom false (b :: got) :: ops => Spec.written repl path (some (b :: got)) ops

/-! ## Proofs -/

private theorem setFile_data {w : World} {i : Nat} {n : FileNode} (h : w.files[i]? = some n) (c : Option Bytes) :
    (setFile w i { n with data := c }).files[i]? = some { n with data := c } ∧ (setFile w i { n with data := c }).dirs = w.dirs ∧
      (setFile w i { n with data := c }).calls = w.calls ∧ ∀ j, j ≠ i → (setFile w i { n with data := c }).files[j]? = w.files[j]? := by
  have hg := fun j => getElem?_setFile h (m := { n with data := c }) j
  refine ⟨by rw [hg, if_pos rfl], rfl, rfl, fun j hj => by rw [hg, if_neg hj]⟩

/-- **C311**, the part that holds: no history of calls on a file panics; it changes no other file and no directory; the content kept and the calls made to the disk are what the
history says. Missing: that the calls made to the disk are on the file (refuted: `C220_save_path_violated`, `C220_append_lost_violated`), and that content is appended to a
file that is as stored (refuted: `C311_lost_after_reset_violated`). -/
theorem C311_history_partial (repl : Repl) (i : Nat) (ops : List FileOp) (w : World) (n : FileNode) (h : w.files[i]? = some n) :
    ∃ w', fileRun repl w i ops = some w' ∧ w'.files[i]? = some { n with data := Spec.kept repl n.data ops } ∧
      w'.calls = w.calls ++ Spec.written repl n.uri.path n.data ops ∧ w'.dirs = w.dirs ∧ ∀ j, j ≠ i → w'.files[j]? = w.files[j]? := by
  induction ops generalizing w n with
  | nil => exact ⟨w, rfl, by simpa [Spec.kept] using h, by simp [Spec.written], rfl, fun j _ => rfl⟩
  | cons op ops ih =>
    have go : ∀ (c : Option Bytes) (extra : List OsCall) (w1 : World), fileStep repl w i op = some w1 → w1.files[i]? = some { n with data := c } → w1.calls = w.calls ++ extra →
        w1.dirs = w.dirs → (∀ j, j ≠ i → w1.files[j]? = w.files[j]?) → Spec.kept repl n.data (op :: ops) = Spec.kept repl c ops →
        Spec.written repl n.uri.path n.data (op :: ops) = extra ++ Spec.written repl n.uri.path c ops →
        ∃ w', fileRun repl w i (op :: ops) = some w' ∧ w'.files[i]? = some { n with data := Spec.kept repl n.data (op :: ops) } ∧
          w'.calls = w.calls ++ Spec.written repl n.uri.path n.data (op :: ops) ∧ w'.dirs = w.dirs ∧ ∀ j, j ≠ i → w'.files[j]? = w.files[j]? := by
      intro c extra w1 hs h1 h2 h3 h4 h5 h6
      obtain ⟨w', k1, k2, k3, k4, k5⟩ := ih w1 { n with data := c } h1
      refine ⟨w', by simp only [fileRun, hs, Option.bind_some, k1], by rw [k2, h5], ?_, by rw [k4, h3], fun j hj => by rw [k5 j hj, h4 j hj]⟩
      rw [k3, h2, h6, List.append_assoc]
    have hset : ∀ c, fileStep repl w i op = some (setFile w i { n with data := c }) → Spec.kept repl n.data (op :: ops) = Spec.kept repl c ops →
        Spec.written repl n.uri.path n.data (op :: ops) = Spec.written repl n.uri.path c ops →
        ∃ w', fileRun repl w i (op :: ops) = some w' ∧ w'.files[i]? = some { n with data := Spec.kept repl n.data (op :: ops) } ∧
          w'.calls = w.calls ++ Spec.written repl n.uri.path n.data (op :: ops) ∧ w'.dirs = w.dirs ∧ ∀ j, j ≠ i → w'.files[j]? = w.files[j]? := by
      intro c hs h5 h6
      obtain ⟨s1, s2, s3, s4⟩ := setFile_data h c
      exact go c [] _ hs s1 (by rw [s3]; simp) s2 s4 h5 (by rw [h6]; rfl)
    cases op with
    | set d => exact hset (some d) (by simp only [fileStep, unmarshal, deref_some h]) (by cases n.data <;> rfl) (by cases n.data <;> rfl)
    | reset => exact hset none (by simp only [fileStep, unmarshalNil, deref_some h]) (by cases n.data <;> rfl) (by cases n.data <;> rfl)
    | append d =>
      cases hd : n.data with
      | some c => rw [← hd]; exact hset (some (c ++ d)) (by simp only [fileStep, append, deref_some h, hd]) (by rw [hd]; rfl) (by rw [hd]; rfl)
      | none =>
        rw [← hd]
        exact go none [.appendFile [] d] { w with calls := w.calls ++ [.appendFile [] d] } (by simp only [fileStep, append, deref_some h, hd]) (by rw [← hd]; exact h) rfl rfl (fun j _ => rfl) (by rw [hd]; rfl) (by rw [hd]; rfl)
    | prepend d =>
      cases hd : n.data with
      | some c => rw [← hd]; exact hset (some (d ++ c)) (by simp only [fileStep, prepend, deref_some h, hd]) (by rw [hd]; rfl) (by rw [hd]; rfl)
      | none =>
        rw [← hd]
        exact go none [] w (by simp only [fileStep, prepend, deref_some h, hd]) (by rw [← hd]; exact h) (by simp) rfl (fun j _ => rfl) (by rw [hd]; rfl) (by rw [hd]; rfl)
    | save =>
      cases hd : n.data with
      | some c =>
        rw [← hd]
        exact go (some c) [.writeFile n.uri.path c] { w with calls := w.calls ++ [.writeFile n.uri.path c] } (by simp only [fileStep, save, deref_some h, hd, Option.map_some]) (by rw [← hd]; exact h) rfl rfl (fun j _ => rfl)
          (by rw [hd]; rfl) (by rw [hd]; rfl)
      | none =>
        rw [← hd]
        exact go none [] w (by simp only [fileStep, save, deref_some h, hd, Option.map_some]) (by rw [← hd]; exact h) (by simp) rfl (fun j _ => rfl) (by rw [hd]; rfl) (by rw [hd]; rfl)
    | replace old new k => exact hset (repl n.data old new k) (by simp only [fileStep, replace, deref_some h]) (by cases n.data <;> rfl) (by cases n.data <;> rfl)
    | readFrom p g =>
      cases p with
      | true => exact hset (some g) (by simp [fileStep, readFrom, deref_some h]) (by cases n.data <;> rfl) (by cases n.data <;> rfl)
      | false =>
        cases g with
        | nil => exact hset none (by simp [fileStep, readFrom, deref_some h]) (by cases n.data <;> rfl) (by cases n.data <;> rfl)
        | cons b g => exact hset (some (b :: g)) (by simp [fileStep, readFrom, deref_some h]) (by cases n.data <;> rfl) (by cases n.data <;> rfl)

private theorem kept_append (repl : Repl) (c : Option Bytes) (a b : List FileOp) : Spec.kept repl c (a ++ b) = Spec.kept repl (Spec.kept repl c a) b := by
  induction a generalizing c with
  | nil => rfl
  | cons op a ih =>
    cases op with
    | readFrom p g => cases p <;> cases g <;> cases c <;> simp [Spec.kept, ih]
    | _ => cases c <;> simp [Spec.kept, ih]

/-- **C311**: whatever was done to a file before, after a reset reading the file gives what the disk gives at that time, and saving it writes nothing. -/
theorem C311_reset (repl : Repl) (o : Oracle) (i : Nat) (ops : List FileOp) (w : World) (n : FileNode) (h : w.files[i]? = some n) :
    ∃ w', fileRun repl w i (ops ++ [.reset]) = some w' ∧ (marshal o w' (some i)).map (·.2) = some (o.readFile w'.calls n.uri.path) ∧ save w' (some i) = some w' := by
  obtain ⟨w', k1, k2, _⟩ := C311_history_partial repl i (ops ++ [.reset]) w n h
  have hk : Spec.kept repl n.data (ops ++ [.reset]) = none := by
    rw [kept_append]
    cases Spec.kept repl n.data ops <;> rfl
  rw [hk] at k2
  exact ⟨w', k1, by simp only [marshal, deref_some k2, Option.map_some], by simp only [save, deref_some k2, Option.map_some]⟩

/-- C311 violated: after a reset the file reads as stored, but its length is zero, and writing it out or adding it to other bytes gives nothing. -/
theorem C311_unread_violated (repl : Repl) (o : Oracle) (i : Nat) (ops : List FileOp) (w : World) (n : FileNode) (h : w.files[i]? = some n) (pre stored : Bytes)
    (hs : ∀ calls, o.readFile calls n.uri.path = stored) (hne : stored ≠ []) :
    ∃ w', fileRun repl w i (ops ++ [.reset]) = some w' ∧ (marshal o w' (some i)).map (·.2) = some stored ∧
      len w' (some i) = some 0 ∧ len w' (some i) ≠ some stored.length ∧ writeTo w' (some i) = some [] ∧ marshalTo w' (some i) pre = some pre := by
  obtain ⟨w', k1, k2, _⟩ := C311_history_partial repl i (ops ++ [.reset]) w n h
  have hk : Spec.kept repl n.data (ops ++ [.reset]) = none := by
    rw [kept_append]
    cases Spec.kept repl n.data ops <;> rfl
  rw [hk] at k2
  have hl : len w' (some i) = some 0 := by simp [len, deref_some k2]
  refine ⟨w', k1, by simp only [marshal, deref_some k2, Option.map_some, hs], hl, ?_, by simp [writeTo, deref_some k2], by simp [marshalTo, deref_some k2]⟩
  rw [hl]
  intro e
  simp only [Option.some.injEq] at e
  exact hne (List.length_eq_zero_iff.mp e.symm)

/-- C311 violated: what is put before or behind the content of a file that is as stored is not in the content, nor is it saved to the file, whatever follows but a new content. -/
theorem C311_lost_after_reset_violated (repl : Repl) (o : Oracle) (i : Nat) (ds : List (Bool × Bytes)) (w : World) (n : FileNode) (h : w.files[i]? = some n) :
    ∃ w', fileRun repl w i (.reset :: (ds.map fun d => if d.1 then FileOp.append d.2 else .prepend d.2) ++ [.save]) = some w' ∧
      (marshal o w' (some i)).map (·.2) = some (o.readFile w'.calls n.uri.path) ∧
      w'.calls = w.calls ++ (ds.filter (·.1)).map fun d => .appendFile [] d.2 := by
  obtain ⟨w', k1, k2, k3, _⟩ := C311_history_partial repl i (.reset :: (ds.map fun d => if d.1 then FileOp.append d.2 else .prepend d.2) ++ [.save]) w n h
  have hk : ∀ ds : List (Bool × Bytes), Spec.kept repl none ((ds.map fun d => if d.1 then FileOp.append d.2 else .prepend d.2) ++ [.save]) = none ∧
      Spec.written repl n.uri.path none ((ds.map fun d => if d.1 then FileOp.append d.2 else .prepend d.2) ++ [.save]) =
        (ds.filter (·.1)).map fun d => .appendFile [] d.2 := by
    intro ds
    induction ds with
    | nil => exact ⟨rfl, rfl⟩
    | cons d ds ih => obtain ⟨b, d⟩ := d; cases b <;> simp [Spec.kept, Spec.written, ih.1, ih.2]
  have e1 : Spec.kept repl n.data (.reset :: (ds.map fun d => if d.1 then FileOp.append d.2 else .prepend d.2) ++ [.save]) = none := by
    rw [List.cons_append]
    cases n.data <;> exact (hk ds).1
  have e2 : Spec.written repl n.uri.path n.data (.reset :: (ds.map fun d => if d.1 then FileOp.append d.2 else .prepend d.2) ++ [.save]) =
      (ds.filter (·.1)).map fun d => .appendFile [] d.2 := by
    rw [List.cons_append]
    cases n.data <;> exact (hk ds).2
  rw [e1] at k2
  rw [e2] at k3
  exact ⟨w', k1, by simp only [marshal, deref_some k2, Option.map_some], k3⟩

/-- C311 violated: a file keeps its content when it is compressed and saved. For a file that is as stored, whatever is stored, what is saved is the compressed form of no
bytes at all. -/
theorem C311_compress_violated (gz : Bytes → Bytes) (gzipName : Bytes) (repl : Repl) (i : Nat) (ops : List FileOp) (w : World) (n : FileNode) (h : w.files[i]? = some n)
    (he : n.uri.ext ∉ noCompress) :
    ∃ w1 w2 w3, fileRun repl w i (ops ++ [.reset]) = some w1 ∧ compress gz gzipName w1 (some i) gzipName = some w2 ∧ save w2 (some i) = some w3 ∧
      w3.calls = w1.calls ++ [.writeFile n.uri.path (gz [])] := by
  obtain ⟨w', k1, k2, _⟩ := C311_history_partial repl i (ops ++ [.reset]) w n h
  have hk : Spec.kept repl n.data (ops ++ [.reset]) = none := by
    rw [kept_append]
    cases Spec.kept repl n.data ops <;> rfl
  rw [hk] at k2
  have hg := getElem?_setFile k2 (m := { n with compressType := gzipName, data := some (gz []) }) i
  rw [if_pos rfl] at hg
  exact ⟨w', setFile w' i { n with compressType := gzipName, data := some (gz []) },
    { setFile w' i { n with compressType := gzipName, data := some (gz []) } with calls := w'.calls ++ [.writeFile n.uri.path (gz [])] },
    k1, by simp [compress, deref_some k2, he], by simp only [save, deref_some hg, Option.map_some]; rfl, rfl⟩

/-! ## Non-vacuity -/

private def exN : FileNode := ⟨⟨bs "d/", bs "f.js", bs "js"⟩, none, bs "js", [], some (bs "hi")⟩
private def exW : World := { dirs := [], files := [exN], calls := [] }
private def exR : Repl := fun c _ new _ => c.map (· ++ new)
private def exO : Oracle := { exOracle with readFile := fun _ _ => bs "stored" }

example := C311_history_partial exR 0 [.replace (bs "h") (bs "j") 1, .readFrom false [], .readFrom true (bs "r"), .append (bs "!"), .save, .reset, .prepend (bs "x"), .append (bs "y"), .save] exW exN rfl
example : (fileRun exR exW 0 [.append (bs "!"), .save, .reset, .prepend (bs "x"), .append (bs "y"), .save]).map (·.calls) =
    some [.writeFile (bs "d/") (bs "hi!"), .appendFile [] (bs "y")] := by decide +kernel
example := C311_reset exR exO 0 [.append (bs "!"), .prepend (bs "x")] exW exN rfl
example := C311_unread_violated exR exO 0 [.append (bs "!")] exW exN rfl (bs "pre") (bs "stored") (fun _ => rfl) (by decide +kernel)
example := C311_lost_after_reset_violated exR exO 0 [(true, bs "a"), (false, bs "b")] exW exN rfl
example := C311_compress_violated List.reverse (bs "gzip") exR 0 [.append (bs "!")] exW exN rfl (by decide +kernel)

end Memar.Os
