import Verif.Http.ExchangeProps
import Verif.Os.Reset

/-!
# Web content served from the directory of the operating system: C312

`ServeWWW` (C110) is followed here together with the directory and the files that the package `os/default` gives it, and with the response that is then sent.
-/

namespace Memar.Http
open Memar Memar.Decimal

/-! ## Model -/

/-- net/http/services/serve-www.go:64 `GUI.FileByPath`: `gui` is the directory in the field of the assets; a call on no directory panics. -/
def guiFile (w : Os.World) (gui : Os.Iface) (path : Bytes) : Option Os.Iface :=
  match gui with
  | .ptr (some d) => Os.fileByPathI w d path
  | _ => none

/-- net/http/services/serve-www.go:77-80, os/default/file.go:27 and net/http/v1/handler.go:65-89: the file found becomes the body of the response, and the lines about the
body and the bytes of the body are taken from it. `Data` answers its receiver, so a nil pointer becomes a body that is not nil; its methods panic. `mt` and `ce` stand for the
media type and compress type of the file: the handler and the file come from different generations of the interfaces. -/
def sendFile (w : Os.World) (reqFile : Os.Iface) (mt ce : Os.FileNode → Option Bytes) (version : Bytes) (r : Response) : Option (Response × Bytes) :=
  match reqFile with
  | .nil => none
  | .ptr p =>
    (Os.deref w p).bind fun n => (Os.len w p).bind fun l =>
      (handleOutcome version r (some ⟨mt n, ce n, l⟩)).bind fun r' => (Os.marshalTo w p []).map fun b => (r', b)

/-- net/http/services/serve-www.go:63-80 `ServeHTTP` with the files of `os/default`, then net/http/v1/handler.go:65-89: the response and the bytes of its body; `none` is a
panic. `main` is the page for paths without a file. The error that `ServeHTTP` answers is left out. -/
def serveTree (w : Os.World) (gui main : Os.Iface) (path : Bytes) (mt ce : Os.FileNode → Option Bytes) (version : Bytes) (r : Response) : Option (Response × Bytes) :=
  (guiFile w gui path).bind fun found =>
    (serveWWW (E := Unit) (if found = .nil then none else some found) (some main, none) r).bind fun x => sendFile w x.2.1 mt ce version x.1

/-- www/assets.go:23-30 `Init` up to the call of `update`: the directory of the web content and the one of the main pages in it; `none` is a panic. The root is what
`App.Files()` answers; `LogFatal` is called with the error of `Directory`, which is nil, and is left out. -/
def assetsInit (o : Os.Oracle) (w : Os.World) : Option (Os.World × Os.Iface × Os.Iface) :=
  (Os.directory o w 0 (bs "gui")).bind fun x =>
    match x.2 with
    | .ptr (some d) => (Os.directory o x.1 d (bs "main-html")).map fun y => (y.1, x.2, y.2)
    | _ => none

/-! ## Proofs -/

/-- The lines that serving adds to a response: Cache-Control, unless the handler set it. -/
private theorem serve_lines (f main : Os.Iface) (r : Response) :
    ∃ r1, serveWWW (E := Unit) (some f) (some main, none) r = some (r1, f, none) ∧ r1.statusCode = bs "200" ∧ r1.reasonPhrase = bs "OK" ∧
      ∀ p ∈ r1.header.lines, p ∈ r.header.lines ∨ p.1 = bs "Cache-Control" := by
  have hs := C14_set_exact_partial r.header (bs "Cache-Control") (bs "max-age=31536000, immutable")
  refine ⟨{ r.setStatus (bs "200") (bs "OK") with header :=
        (if (∃ p ∈ r.header.lines, p.1 = bs "Cache-Control") then r.header
        else r.header.add (bs "Cache-Control") (bs "max-age=31536000, immutable")) }, ?_, rfl, rfl, ?_⟩
  · unfold serveWWW Response.hset
    rw [show (r.setStatus (bs "200") (bs "OK")).header = r.header from rfl, hs]; rfl
  · intro p hp
    simp only at hp
    split at hp
    · exact .inl hp
    · rcases List.mem_append.mp hp with hp | hp
      · exact .inl hp
      · rw [List.mem_singleton.mp hp]; exact .inr rfl

/-- **C312**, the part that holds: a path at which the directory has a file with bytes in memory is answered with status 200, the length of the file and its bytes, when the
response states no length yet. Missing: files that are as stored (refuted: `C312_stored_violated`), paths without a file (refuted: `C312_missing_violated`), and that a
directory ever has a file (refuted: `C312_every_request_violated`). -/
theorem C312_in_memory_partial (w : Os.World) (d i : Nat) (main : Os.Iface) (path : Bytes) (mt ce : Os.FileNode → Option Bytes) (version : Bytes) (r : Response)
    (n : Os.FileNode) (content : Bytes) (hp : Os.fileByPath w d path = some (some i)) (hn : w.files[i]? = some n) (hd : n.data = some content) (hne : content ≠ [])
    (habs : ∀ p ∈ r.header.lines, p.1 ≠ bs "Content-Length") :
    ∃ r', serveTree w (.ptr (some d)) main path mt ce version r = some (r', content) ∧ r'.statusCode = bs "200" ∧ r'.reasonPhrase = bs "OK" ∧ r'.version = version ∧
      r'.header.get (bs "Content-Length") = decDigits content.length := by
  obtain ⟨r1, h1, h2, h3, h4⟩ := serve_lines (.ptr (some i)) main r
  obtain ⟨r', k1, k2, k3, k4, _⟩ := C107_sent_response version r1 (some ⟨mt n, ce n, content.length⟩)
  have hl : 0 < content.length := List.length_pos_iff.mpr hne
  refine ⟨r', ?_, by rw [k3, h2], by rw [k4, h3], k2, C107_length_announced version r1 r' _ hl ?_ k1⟩
  · simp only [serveTree, guiFile, Os.fileByPathI, hp, Option.map_some, Option.bind_some, reduceCtorEq, if_false, h1, sendFile, Os.deref_some hn, Os.len, hd,
      Option.getD_some, k1, Os.marshalTo, List.nil_append]
  · intro p hp e
    rcases h4 p hp with h | h
    · exact habs p h e
    · rw [h] at e; revert e; decide +kernel

/-- C312 violated: a stored file is sent with its content. Whatever the disk has, a file of which the content is not in memory, as every file that is reset (`C311_reset`), is
sent as a body without a length and without bytes. -/
theorem C312_stored_violated (o : Os.Oracle) (w : Os.World) (d i : Nat) (main : Os.Iface) (path : Bytes) (mt ce : Os.FileNode → Option Bytes) (version : Bytes)
    (r : Response) (n : Os.FileNode) (stored : Bytes) (hp : Os.fileByPath w d path = some (some i)) (hn : w.files[i]? = some n) (hd : n.data = none)
    (hs : ∀ calls, o.readFile calls n.uri.path = stored) (hne : stored ≠ []) :
    (Os.marshal o w (some i)).map (·.2) = some stored ∧
      ∃ r' b, serveTree w (.ptr (some d)) main path mt ce version r = some (r', b) ∧ r'.statusCode = bs "200" ∧ b = [] ∧ b ≠ stored ∧
        (bs "Transfer-Encoding", bs "chunked") ∈ r'.header.lines := by
  obtain ⟨r1, h1, h2, h3, h4⟩ := serve_lines (.ptr (some i)) main r
  obtain ⟨r', k1, k2, k3, k4, k5⟩ := C107_sent_response version r1 (some ⟨mt n, ce n, 0⟩)
  refine ⟨by simp only [Os.marshal, Os.deref_some hn, hd, Option.map_some, hs], r', [], ?_, by rw [k3, h2], rfl, fun e => hne e.symm, ?_⟩
  · simp only [serveTree, guiFile, Os.fileByPathI, hp, Option.map_some, Option.bind_some, reduceCtorEq, if_false, h1, sendFile, Os.deref_some hn, Os.len, hd,
      Option.getD_none, List.length_nil, k1, Os.marshalTo, List.nil_append]
  · rw [k5]
    exact List.mem_append_right _ (by simp)

/-- C312 violated: a path without a file is answered with the main page. Whatever page there is, the handler panics: what `FileByPath` answers is never the nil interface. -/
theorem C312_missing_violated (w : Os.World) (d : Nat) (main : Os.Iface) (path : Bytes) (mt ce : Os.FileNode → Option Bytes) (version : Bytes) (r : Response)
    (hp : Os.fileByPath w d path = some none) : serveTree w (.ptr (some d)) main path mt ce version r = none := by
  obtain ⟨r1, h1, _⟩ := serve_lines (.ptr none) main r
  simp only [serveTree, guiFile, Os.fileByPathI, hp, Option.map_some, Option.bind_some, reduceCtorEq, if_false, h1, sendFile, Os.deref, Option.bind_none]

/-- C312 violated: the main page is shown for some path. It makes no difference which page that is, in any directory and for any path. -/
theorem C312_main_page_unused_violated (w : Os.World) (gui main main' : Os.Iface) (path : Bytes) (mt ce : Os.FileNode → Option Bytes) (version : Bytes) (r : Response) :
    serveTree w gui main path mt ce version r = serveTree w gui main' path mt ce version r := by
  unfold serveTree guiFile
  cases gui with
  | nil => rfl
  | ptr p =>
    cases p with
    | none => rfl
    | some d =>
      simp only [Os.fileByPathI]
      cases Os.fileByPath w d path with
      | none => rfl
      | some f => rfl

/-- C312 violated: some request for web content is answered. After every history of calls on the root directory and whatever the operating system has, the handler panics for
every path, when it serves the root directory and when it serves the directory that it asks the root for. -/
theorem C312_every_request_violated (o : Os.Oracle) (ops : List Os.Op) (w : Os.World) (h : Os.run o (Os.start o) ops = some w) (main : Os.Iface)
    (name path : Bytes) (mt ce : Os.FileNode → Option Bytes) (version : Bytes) (r : Response) :
    serveTree w (.ptr (some 0)) main path mt ce version r = none ∧
      ∃ w' gui, Os.directory o w 0 name = some (w', gui) ∧ serveTree w' gui main path mt ce version r = none := by
  have ha := Os.run_allNil o ops _ _ (Os.start_allNil o) h
  obtain ⟨w', e, _⟩ := Os.C112_directory_unusable_violated o ops w h name
  exact ⟨C312_missing_violated w 0 main path mt ce version r (Os.fileByPath_allNil ha path), w', .ptr none, e, rfl⟩

/-- C312 violated: the web content can be made ready. After every history of calls on the root directory and whatever the operating system has, the initialisation panics. -/
theorem C312_init_violated (o : Os.Oracle) (ops : List Os.Op) (w : Os.World) (h : Os.run o (Os.start o) ops = some w) : assetsInit o w = none := by
  obtain ⟨w', e, _⟩ := Os.C112_directory_unusable_violated o ops w h (bs "gui")
  simp only [assetsInit, e, Option.bind_some]

/-! ## Non-vacuity -/

private def exMt : Os.FileNode → Option Bytes := fun n => some n.mediaOf

example := C312_in_memory_partial Os.exFiles 0 0 (.ptr (some 1)) (bs "/f.js") exMt (fun _ => none) (bs "HTTP/1.1") Response.init _ (bs "hi") (by decide +kernel) rfl rfl
  (by decide +kernel) (by decide +kernel)
example := C312_stored_violated ⟨fun _ _ => true, fun _ _ => none, fun _ _ => bs "picture"⟩ Os.exFiles 0 1 (.ptr (some 0)) (bs "/g.png") exMt (fun _ => none)
  (bs "HTTP/1.1") Response.init _ (bs "picture") (by decide +kernel) rfl rfl (fun _ => rfl) (by decide +kernel)
example := C312_missing_violated Os.exFiles 0 (.ptr (some 0)) (bs "/about") exMt (fun _ => none) (bs "HTTP/1.1") Response.init (by decide +kernel)
example : serveTree Os.exFiles (.ptr (some 0)) (.ptr (some 1)) (bs "/f.js") exMt (fun _ => none) (bs "HTTP/1.1") Response.init ≠ none := by decide +kernel
example := C312_every_request_violated Os.exOracle [.directory (bs "gui"), .file (bs "a.js")] _
  (Option.some_get (show (Os.run Os.exOracle (Os.start Os.exOracle) [.directory (bs "gui"), .file (bs "a.js")]).isSome by decide +kernel)).symm
example := C312_init_violated Os.exOracle [.directory (bs "gui")] _
  (Option.some_get (show (Os.run Os.exOracle (Os.start Os.exOracle) [.directory (bs "gui")]).isSome by decide +kernel)).symm
/-- With a directory that is there, the initialisation goes on. -/
example : (assetsInit Os.exOracle ⟨[⟨Os.zeroURI, none, [(bs "gui", some 1)], []⟩, ⟨Os.zeroURI, some 0, [(bs "main-html", some 2)], []⟩, ⟨Os.zeroURI, some 1, [], []⟩], [], []⟩).map
    (·.2) = some (.ptr (some 1), .ptr (some 2)) := by decide +kernel

end Memar.Http
