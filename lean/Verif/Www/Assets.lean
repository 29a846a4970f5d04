import Verif.Www.Model
import Verif.File.Model

/-!
# Package `www`: making the files that are served (`www/combine.go`, `file/file.go` Compress)

Files and directories are interfaces in the code (`protocol.File`, `protocol.FileDirectory`). They are modelled as their documentation says: a
directory maps names to contents, `File` makes an empty file when there is none of that name, and `Rename` moves the entry. A held file is known
by its current name. Listings (`Files`, `Directories`) are lists of names given to the functions.

Parameters: the minifier (by extension; unchanged contents when it fails), CRC-32, the compressors, the decoder of locale files and the combined
script of each language (its making is in `Verif.Www.Model`, C88 and C89). A Go map over languages is a list in the order of the loop.
Logging is left out.
-/

namespace Memar.Www.Assets
open Memar Memar.File

/-- The directories used by `update` (www/combine.go:36-41 and www/combine.go:261-262). -/
inductive Dir where
  | gui | designLanguages | landings | mainHTML | os
  deriving DecidableEq, Repr

/-- The contents of each file of each directory. -/
abbrev World := Dir → Bytes → Option Bytes

def World.put (w : World) (d : Dir) (n x : Bytes) : World := fun d' m => if d' = d ∧ m = n then some x else w d' m

/-- The contents of the file, and the directory after `File(name)`. -/
def World.get (w : World) (d : Dir) (n : Bytes) : World × Bytes :=
  match w d n with
  | some x => (w, x)
  | none => (w.put d n [], [])

/-- `Rename` of the file `n` to `n'` -/
def World.move (w : World) (d : Dir) (n n' : Bytes) : World := fun d' m =>
  if d' = d ∧ m = n' then w d n else if d' = d ∧ m = n then none else w d' m

/-- What is not part of the code modelled here. An encoding is `none` when no compress type is registered for it, otherwise its file extension and
its compressor. -/
structure Env where
  minify : Bytes → Bytes → Bytes
  crc : Bytes → U32
  encs : List (Option (Bytes × (Bytes → Bytes)))
  langs : Bytes → List (Bytes × List Bytes)
  script : Bytes → Bytes

/-- `Metadata().URI()` of a file called `n` -/
def uriOf (n : Bytes) : URI := (⟨[], [], []⟩ : URI).rename n

/-- `NameWithoutExtension` (file/uri.go:33); it does not panic for a URI made from a name (C206_name_partial) -/
def baseName (n : Bytes) : Bytes := (uriOf n).nameWithoutExtension.getD []

/-- file/file.go:41-54 `AddHashToFileName`: the new name -/
def hashName (E : Env) (n data : Bytes) : Bytes := (hashedName E.crc (uriOf n) data).getD []

/-- file/file.go:66-69 -/
def notWorth : List Bytes := [bs "png", bs "jpg", bs "gif", bs "jpeg", bs "mkv", bs "avi", bs "mp3", bs "mp4"]

/-- file/file.go:73-90: the loop over the encodings; the second part is whether the error left is not nil. The compressors do not refuse. -/
def compressLoop (d : Dir) (n : Bytes) : List (Option (Bytes × (Bytes → Bytes))) → World × Bool → World × Bool
  | [], r => r
  | none :: es, (w, _) => compressLoop d n es (w, true)
  | some (ext, f) :: es, (w, _) => compressLoop d n es (w.put d (n ++ ch '.' :: ext) (f ((w d n).getD [])), false)

/-- file/file.go:63-92 `Compress` -/
def compress (E : Env) (w : World) (d : Dir) (n : Bytes) : World × Bool :=
  if extension n ∈ notWorth then (w, false) else compressLoop d n E.encs (w, false)

/-- Go `bytes.Replace(s, old, new, -1)` with a non-empty `old`; the number is the fuel, one more than the length is enough. -/
def replaceAllLoop (old new : Bytes) : Nat → Bytes → Bytes
  | 0, s => s
  | k + 1, s =>
    match indexOf s old with
    | none => s
    | some i => s.take i ++ new ++ replaceAllLoop old new k (s.drop (i + old.length))

def replaceAll (s old new : Bytes) : Bytes := replaceAllLoop old new (s.length + 1) s

/-! ## www/combine.go:64-141 -/

/-- www/combine.go:101-141 for one language: the script, its hashed name and compressed forms (lines 116-122), the page (lines 124-136) and the
copy that is served (lines 138-140). The result holds the names of the script and of the page. -/
def appLang (E : Env) (w : World) (lang : Bytes) : World × Bytes × Bytes :=
  let js0 := bs "main-" ++ lang ++ bs ".js"
  let script := ch '\n' :: E.script lang
  let js := hashName E js0 script
  let w := (compress E ((w.put .gui js0 script).move .gui js0 js) .gui js).1
  let html0 := bs "main-" ++ lang ++ bs ".html"
  let r := w.get .gui html0
  let page := replaceFirst (E.minify (bs "html") r.2) (bs "/main.js") js
  let html := hashName E html0 page
  let w := (compress E ((r.1.put .gui html0 page).move .gui html0 html) .gui html).1
  (w.put .mainHTML lang page, js, html)

/-- All languages, with the names of the scripts and pages made. -/
def appLangs (E : Env) : World → List Bytes → World × List (Bytes × Bytes × Bytes)
  | w, [] => (w, [])
  | w, l :: ls =>
    let r := appLang E w l
    let t := appLangs E r.1 ls
    (t.1, (l, r.2.1, r.2.2) :: t.2)

/-- www/combine.go:64-141 `readyAppJSFiles` -/
def readyAppJS (E : Env) (w : World) : World × List (Bytes × Bytes × Bytes) :=
  let r1 := w.get .landings (bs "main.html")
  let r2 := r1.1.get .gui (bs "main.js")
  let r3 := r2.1.get .gui (bs "main.json")
  appLangs E r3.1 ((E.langs r3.2).map (·.1))

/-! ## www/combine.go:171-215 -/

/-- www/combine.go:177-189 and www/combine.go:201-213: a style sheet `data` is stored under `temp`, given its hashed name, compressed, and `name` is replaced by
the new name in all scripts. -/
def style (E : Env) (scripts : List Bytes) (w : World) (name temp data : Bytes) : World :=
  let css := E.minify (bs "css") data
  let hn := hashName E temp css
  let w := (compress E ((w.put .designLanguages temp css).move .designLanguages temp hn) .designLanguages hn).1
  scripts.foldl (fun (w : World) s => w.put .gui s (replaceAll ((w .gui s).getD []) name hn)) w

/-- www/combine.go:173-191: one file of the directory -/
def styleFile (E : Env) (scripts : List Bytes) (w : World) (name : Bytes) : World :=
  if extension name = bs "css" then style E scripts w name (bs "h-" ++ name) ((w .designLanguages name).getD []) else w

/-- www/combine.go:192-214: one directory, with the files in it -/
def styleDir (E : Env) (scripts : List Bytes) (w : World) (d : Bytes × List (Bytes × Bytes)) : World :=
  style E scripts w (d.1 ++ bs ".css") (d.1 ++ bs ".css") ((d.2.filter fun f => extension f.1 = bs "css").map (·.2)).flatten

/-- www/combine.go:171-215 `readyDesignLanguagesFiles`: `names` and `dirs` are what the directory lists. -/
def readyStyles (E : Env) (scripts : List Bytes) (names : List Bytes) (dirs : List (Bytes × List (Bytes × Bytes))) (w : World) : World :=
  dirs.foldl (styleDir E scripts) (names.foldl (styleFile E scripts) w)

/-! ## www/combine.go:218-280 -/

/-- www/combine.go:241-254: the localised page of one language; `none` is a panic of the localisation -/
def landingLang (E : Env) (landing mixed : Bytes) (w : World) (l : Bytes × List Bytes) : Option World :=
  (localiseHTML mixed l.2).map fun data =>
    let n := landing ++ ch '-' :: l.1 ++ bs ".html"
    (compress E (w.put .landings n (E.minify (bs "html") data)) .landings n).1

def landingLangs (E : Env) (landing mixed : Bytes) : World → List (Bytes × List Bytes) → Option World
  | w, [] => some w
  | w, l :: ls => (landingLang E landing mixed w l).bind fun w => landingLangs E landing mixed w ls

/-- www/combine.go:221-256: one file of the directory -/
def landing (E : Env) (w : World) (n : Bytes) : Option World :=
  if extension n = bs "html" then
    let r := w.get .landings (baseName n ++ bs ".json")
    if E.langs r.2 = [] then some r.1
    else
      let c := r.1.get .landings (baseName n ++ bs ".css")
      landingLangs E (baseName n) (mixCSSToHTML ((c.1 .landings n).getD []) c.2) c.1 (E.langs r.2)
  else some w

/-- www/combine.go:218-257 `readyLandingsFiles` -/
def readyLandings (E : Env) : World → List Bytes → Option World
  | w, [] => some w
  | w, n :: ns => (landing E w n).bind fun w => readyLandings E w ns

/-- www/combine.go:263-279: the service worker of one language -/
def swLang (E : Env) (w : World) (l : Bytes × Bytes × Bytes) : World :=
  let r := w.get .os (bs "sw.js")
  let n := bs "sw-" ++ l.1 ++ bs ".js"
  (compress E (r.1.put .gui n (E.minify (bs "js") (replaceAll r.2 (bs "main.html") l.2.2))) .gui n).1

/-- www/combine.go:31-52 `update`: what the two directories list when they are read is given. -/
def update (E : Env) (landings styles : List Bytes) (dirs : List (Bytes × List (Bytes × Bytes))) (w : World) : Option World :=
  (readyLandings E w landings).map fun w =>
    let r := readyAppJS E w
    readyStyles E (r.2.map (·.2.1)) styles dirs (r.2.foldl (swLang E) r.1)

end Memar.Www.Assets
