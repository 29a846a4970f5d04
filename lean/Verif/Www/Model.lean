import Verif.Base
import Verif.Strings
import Verif.Decimal

/-!
# Package `www`: localisation and combination of web assets

* `minify.*.MinifyBytes` is a parameter (`none` is an error).
* A map from language to texts is used one language at a time.
* File system look-ups (`file.FindByRelativeFrom`, `ParentDirectory().File`) are parameters.
* Logging, compression, hashing and `Minify` of whole files are left out.
-/

set_option linter.unusedVariables false

namespace Memar.Www
open Memar Decimal

/-- `strconv.ParseUint(s, 10, 8)`: a non-empty digit string with a value below 256. -/
def parseUint8 (s : Bytes) : Option Nat :=
  if AllDigits s ∧ s ≠ [] ∧ decVal s < 256 then some (decVal s) else none

/-- www/html.go:72-97 `replaceLocalizeTextInHTML` (`mark` = `${LocaleText[`, 13 bytes) and
www/js.go:144-168 `replaceLocalizeTextInJS` (`mark` = `LocaleText[`, 11 bytes): the loop with the output
so far in `mix`. A missing `]` makes the slice `html[13:-1]` panic, an index past the texts panics,
a bad number is skipped. -/
def localiseLoop (mark : Bytes) (text : List Bytes) (html mix : Bytes) : Option Bytes :=
  match indexOf html mark with
  | none => some (mix ++ html)
  | some i =>
    match hb : indexByte (html.drop i) (ch ']') with
    | none => none
    | some b =>
      if b < mark.length then none
      else
        match parseUint8 (((html.drop i).take b).drop mark.length) with
        | none => localiseLoop mark text ((html.drop i).drop (b + 1)) (mix ++ html.take i)
        | some k =>
          match text[k]? with
          | none => none
          | some t => localiseLoop mark text ((html.drop i).drop (b + 1)) (mix ++ html.take i ++ t)
termination_by html.length
decreasing_by
  all_goals
    have : html.drop i ≠ [] := by intro h; rw [h] at hb; cases hb
    have : 0 < (html.drop i).length := List.length_pos_iff.mpr this
    simp at this ⊢
    omega

/-- www/html.go:79 -/
def htmlMark : Bytes := bs "${LocaleText["
/-- www/js.go:150 -/
def jsMark : Bytes := bs "LocaleText["

/-- www/html.go:72-97 -/
def localiseHTML (html : Bytes) (text : List Bytes) : Option Bytes := localiseLoop htmlMark text html []
/-- www/js.go:144-168 -/
def localiseJS (js : Bytes) (text : List Bytes) : Option Bytes := localiseLoop jsMark text js []

/-- www/css.go:13-20 `mixCSSToHTML` -/
def mixCSSToHTML (html css : Bytes) : Bytes := html ++ bs "\n<style>" ++ css ++ bs "</style>"

/-- Go `bytes.Replace(s, old, new, 1)` with a non-empty `old`. -/
def replaceFirst (s old new : Bytes) : Bytes :=
  match indexOf s old with
  | none => s
  | some i => s.take i ++ new ++ s.drop (i + old.length)

/-- www/css.go:23-38 `mixCSSToJS`; a minifier error gives a nil result and the error. -/
def mixCSSToJS (minify : Bytes → Option Bytes) (js css : Bytes) : Option Bytes :=
  match minify css with
  | none => none
  | some css =>
    match indexOf js (bs "CSS: '") with
    | none => some (replaceFirst js (bs "CSS = '") (bs "CSS = '" ++ css))
    | some _ => some (replaceFirst js (bs "CSS: '") (bs "CSS: '" ++ css))

/-- www/html.go:30-37 and 53-60: the text is put after the first grave accent behind `loc`; a missing
grave accent gives `graveAccentIndex = -1 + loc + 1`. -/
def insertAt (js html : Bytes) (loc : Nat) : Bytes :=
  let g := match indexByte (js.drop loc) (ch '`') with
    | some i => i + loc + 1
    | none => loc
  js.take g ++ html ++ js.drop g

/-- www/html.go:15-38 `mixHTMLToJS`: the outer `none` is a minifier error; without the marker the
result is nil, which is the empty text, and no error. -/
def mixHTMLToJS (minify : Bytes → Option Bytes) (js html : Bytes) : Option Bytes :=
  match minify html with
  | none => none
  | some html =>
    match indexOf js (bs "HTML: (") with
    | some loc => some (insertAt js html loc)
    | none =>
      match indexOf js (bs "HTML = (") with
      | some loc => some (insertAt js html loc)
      | none => some []

/-- www/html.go:41-61 `mixHTMLTemplateToJS` -/
def mixHTMLTemplateToJS (minify : Bytes → Option Bytes) (js html tempName : Bytes) : Option Bytes :=
  match minify html with
  | none => none
  | some html =>
    match indexOf js (tempName ++ bs "\": (") with
    | some loc => some (insertAt js html loc)
    | none => some []

/-- www/js.go:91-133 `localeAndMixJSFile` for one language: the style file is mixed in when there is
one (a minifier error leaves an empty script), the script is localised, and the results of
`mixHTMLToJS` and `mixHTMLTemplateToJS` (lines 120 and 128) are thrown away. Those calls do not
panic by themselves: their slices lie within the script (`insertAt`). -/
def localeAndMix (minify : Bytes → Option Bytes) (js : Bytes) (css : Option Bytes) (_html : Option Bytes)
    (text : List Bytes) : Option Bytes :=
  let js := match css with
    | none => js
    | some c => (mixCSSToJS minify js c).getD []
  localiseJS js text

/-! ## Imports -/

def importWord : Bytes := bs "import "

/-- www/js.go:59-89 `extractJSImports`: the script without its import statements, and the quoted
paths. `copy(jsData[i-1:], jsData[en+1:])` panics when the statement is at the very start; a missing
quote makes `jsData[st:en]` panic. -/
def extractLoop (data : Bytes) (acc : List Bytes) : Option (Bytes × List Bytes) :=
  match indexOf data importWord with
  | none => some (data, acc)
  | some ik =>
    match indexByte (data.drop ik) (ch '\'') with
    | none => none
    | some q =>
      let st := ik + q + 1
      match he : indexByte (data.drop st) (ch '\'') with
      | none => none
      | some e =>
        let en := st + e
        if ik = 0 then none
        else extractLoop (data.take (ik - 1) ++ data.drop (en + 1)) (acc ++ [(data.take en).drop st])
termination_by data.length
decreasing_by
  have : data.drop st ≠ [] := by intro h; rw [h] at he; cases he
  have : 0 < (data.drop st).length := List.length_pos_iff.mpr this
  simp at this ⊢
  omega

def extractImports (data : Bytes) : Option (Bytes × List Bytes) := extractLoop data []

/-- www/js.go:15-18 the part of `JS` used while collecting imports. Files are numbered; a file whose
import statements have been removed is in `done` (its data no longer has any). -/
structure Collect where
  imports : List Nat
  done : List Nat
  deriving DecidableEq, Repr

/-- www/js.go:59-89 seen from the outside: the found imports of a file are appended the first time. -/
def Collect.extract (g : Nat → List Nat) (s : Collect) (f : Nat) : Collect :=
  if f ∈ s.done then s else { imports := s.imports ++ g f, done := f :: s.done }

/-- www/js.go:50-57 `extractJSImportsRecursively`; the first argument bounds the depth of the
recursion. The range expression `js.imports[lastImportIndex:]` is evaluated once, before the loop. -/
def collectRec (g : Nat → List Nat) : Nat → Collect → Nat → Collect
  | 0, s, _ => s
  | n + 1, s, f =>
    let s' := s.extract g f
    (s'.imports.drop s.imports.length).foldl (fun s i => collectRec g n s i) s'

/-- www/combine.go:89-94: the collector of the main file. -/
def collect (g : Nat → List Nat) (depth main : Nat) : List Nat :=
  (collectRec g depth { imports := [main], done := [] } main).imports

/-- www/combine.go:23-24,143-163 `addLocalized`: the files already added and the combined script of one
language. -/
structure Combined where
  inlined : List Nat
  out : Bytes

/-- www/combine.go:143-163; `data` is the localised data of the file in that language, empty when the
file has none. -/
def Combined.add (data : Nat → Bytes) (c : Combined) (f : Nat) : Combined :=
  if f ∈ c.inlined then c else { inlined := c.inlined ++ [f], out := c.out ++ data f }

/-- www/combine.go:112-114: the collected files from last to first; the script starts with a line feed
(line 108). -/
def combineAll (data : Nat → Bytes) (imports : List Nat) : Combined :=
  imports.reverse.foldl (fun c f => c.add data f) { inlined := [], out := bs "\n" }

/-- www/js.go:26-32 `addJSToJS`: the destination's data and the inlined files. -/
def addJS (data : Nat → Bytes) (inlined : List Nat) (des : Bytes) (src : Nat) : List Nat × Bytes :=
  if src ∈ inlined then (inlined, des) else (inlined ++ [src], des ++ data src)

/-- www/js.go:35-48 `addJSToJSRecursively`: the list that is looped over is a fresh empty one, so no
import is ever added. -/
def addJSRecursively (data : Nat → Bytes) (inlined : List Nat) (des : Bytes) (src : Nat) : List Nat × Bytes :=
  if src ∈ inlined then (inlined, des)
  else
    let imports : List Nat := []
    let r := imports.foldl (fun s i => addJS data s.1 s.2 i) (inlined ++ [src], des)
    (r.1, r.2 ++ data src)

end Memar.Www
