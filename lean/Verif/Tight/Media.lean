import Verif.Os.Props2
import Verif.File.Props

/-!
# C282: the media type of a file is that of its name
-/

namespace Memar.Os
open Memar Memar.File

/-- The specification: `e` is the extension of a name: what follows its last dot, and empty if it has none. -/
inductive ExtensionOf : Bytes → Bytes → Prop
  | none {n} : ch '.' ∉ n → ExtensionOf n []
  | some {a e} : ch '.' ∉ e → ExtensionOf (a ++ ch '.' :: e) e

theorem extensionOf_extension (n : Bytes) : ExtensionOf n (extension n) := by
  rcases ext_cases n with ⟨h, hn⟩ | ⟨a, h, hn⟩
  · rw [h]; exact .none hn
  · generalize extension n = e at *
    rw [h]; exact .some hn

theorem extensionOf_eq (n e : Bytes) (h : ExtensionOf n e) : e = extension n := by
  cases h with
  | none hn => exact ((C84_extension n).1 hn).symm
  | some hn => exact ((C84_extension _).2 _ _ rfl hn).symm

/-- **C282** (partial: only until the file is renamed, see `C282_rename_violated`): a file made with a path has the media type that
its extension has, the extension being that of the part of the path after the last slash.
Missing: renamed files (refuted: `C282_rename_violated`). -/
theorem C282_made_partial (f : FileNode) (dir name e : Bytes) (hd : dir = [] ∨ ∃ d, dir = d ++ [ch '/']) (hn : ch '/' ∉ name)
    (he : ExtensionOf name e) : (fileInit f (dir ++ name)).mediaOf = e ∧ (fileInit f (dir ++ name)).uri.name = name := by
  obtain ⟨h1, h2, h3⟩ := C84_split f.uri (dir ++ name)
  have hname : (f.uri.init (dir ++ name)).name = name := by
    generalize (f.uri.init (dir ++ name)).path = p at *
    generalize (f.uri.init (dir ++ name)).name = q at *
    have key : ∀ (p q d : Bytes), p ++ q = d ++ name → ch '/' ∉ q → (p = [] ∨ ∃ x, p = x ++ [ch '/']) → (d = [] ∨ ∃ x, d = x ++ [ch '/']) → q = name := by
      intro p q d h hq hp hd
      rcases List.append_eq_append_iff.1 h with ⟨a, e1, e2⟩ | ⟨a, e1, e2⟩
      · rcases hd with hd | ⟨x, hd⟩
        · simp [hd] at e1; simp [e2, e1.2]
        · rcases List.eq_nil_or_concat a with ha | ⟨a', y, ha⟩ <;> try rw [List.concat_eq_append] at ha
          · simp [e2, ha]
          · exfalso; apply hq
            have : y = ch '/' := by
              rw [hd, ha, ← List.append_assoc] at e1
              exact ((List.append_inj' e1 rfl).2 |> fun h => by simpa using h.symm)
            rw [e2, ha, this]; simp
      · rcases hp with hp | ⟨x, hp⟩
        · simp [hp] at e1; simp [e2, e1.2]
        · rcases List.eq_nil_or_concat a with ha | ⟨a', y, ha⟩ <;> try rw [List.concat_eq_append] at ha
          · simp [e2, ha]
          · exfalso; apply hn
            have : y = ch '/' := by
              rw [hp, ha, ← List.append_assoc] at e1
              exact ((List.append_inj' e1 rfl).2 |> fun h => by simpa using h.symm)
            rw [e2, ha, this]; simp
    exact key p q dir h1 h2 h3 hd
  refine ⟨?_, hname⟩
  show extension (f.uri.init (dir ++ name)).name = e
  rw [hname, extensionOf_eq name e he]

example : (fileInit ⟨zeroURI, none, [], [], none⟩ (bs "a.b/c.d.js")).mediaOf = bs "js" := by decide +kernel

/-- C282 violated: a file that is renamed keeps the media type of its old name. It has the media type of its new name exactly if both
names have the same extension. -/
theorem C282_rename_violated (w w' : World) (i : Nat) (n n' : FileNode) (newName e e' : Bytes) (h : w.files[i]? = some n)
    (he : n.mediaOf = e) (hr : rename w (some i) newName = some w') (h' : w'.files[i]? = some n') (he' : ExtensionOf newName e') :
    n'.uri.name = newName ∧ n'.mediaOf = e ∧ (n'.mediaOf = e' ↔ e = e') := by
  unfold rename at hr
  rw [deref_some h] at hr
  dsimp only at hr
  split at hr
  · simp at hr
  · split at hr
    · simp at hr
    · rename_i p _ _ pn _
      have hw := Option.some.inj hr
      have hs := getElem?_setFile (w := setFiles w p (mapSet (mapDelete pn.files n.uri.name) newName (some i))) (i := i) (n := n)
        (m := { n with uri := n.uri.rename newName }) h i
      rw [if_pos rfl, hw, h'] at hs
      have := Option.some.inj hs
      subst this
      exact ⟨rfl, he, by rw [show ({ n with uri := n.uri.rename newName } : FileNode).mediaOf = n.mediaOf from rfl, he]⟩

/-- A style renamed to a script stays a style. -/
example : (rename ⟨[⟨zeroURI, none, [], [(bs "a.css", some 0)]⟩], [fileInit ⟨zeroURI, some 0, [], [], none⟩ (bs "a.css")], []⟩ (some 0)
    (bs "a.js")).map (fun w => w.files.map fun (n : FileNode) => (n.uri.name, n.mediaOf)) = some [(bs "a.js", bs "css")] := by
  decide +kernel

/-- **C115**: the files that are never compressed are the images png, jpg, jpeg and gif, the films mkv, avi and mp4 and the music mp3,
by the extension of their name as it is written. Every other file is compressed by gzip. -/
theorem C115_never_compressed (gz : Bytes → Bytes) (gzipName : Bytes) (w : World) (i : Nat) (n : FileNode) (h : w.files[i]? = some n) :
    (n.uri.ext ∈ [bs "png", bs "jpg", bs "jpeg", bs "gif", bs "mkv", bs "avi", bs "mp4", bs "mp3"] →
      ∀ ct, compress gz gzipName w (some i) ct = some w) ∧
    (n.uri.ext ∉ [bs "png", bs "jpg", bs "jpeg", bs "gif", bs "mkv", bs "avi", bs "mp4", bs "mp3"] →
      ∃ w', compress gz gzipName w (some i) gzipName = some w' ∧
        w'.files[i]? = some { n with compressType := gzipName, data := some (gz (n.data.getD [])) }) := by
  have hm : n.uri.ext ∈ noCompress ↔
      n.uri.ext ∈ [bs "png", bs "jpg", bs "jpeg", bs "gif", bs "mkv", bs "avi", bs "mp4", bs "mp3"] := by
    simp only [noCompress, List.mem_cons, List.not_mem_nil, or_false]
    constructor
    · rintro (h | h | h | h | h | h | h | h) <;> simp only [h, true_or, or_true]
    · rintro (h | h | h | h | h | h | h | h) <;> simp only [h, true_or, or_true]
  constructor
  · intro hin ct
    exact (C115_compress gz gzipName w i n h ct).1 (hm.2 hin)
  · intro hout
    obtain ⟨w', h1, h2, _⟩ := (C115_compress gz gzipName w i n h gzipName).2 (fun x => hout (hm.1 x))
    exact ⟨w', h1, h2⟩

example : compress (fun _ => []) (bs "gzip") ⟨[], [fileInit ⟨zeroURI, none, [], [], some [1#8]⟩ (bs "a.MP4")], []⟩ (some 0) (bs "gzip") ≠
    some ⟨[], [fileInit ⟨zeroURI, none, [], [], some [1#8]⟩ (bs "a.MP4")], []⟩ := by
  intro h
  have := congrArg (fun w => w.map fun (w : World) => w.files.map (·.data)) h
  revert this
  decide +kernel

end Memar.Os
