import Verif.Base
import Verif.Strings

/-!
# Package `minify`

The minifiers of `github.com/tdewolff/minify` are parameters that answer the minified text or an error. The regular
expression of the HTML minifier is modelled; Go's `regexp` takes the leftmost match, the first alternative that
matches and, for `*?` and `+?`, the shortest repetition.
-/

namespace Memar.Minify
open Memar

/-- `-->` -/
def commentEnd : Bytes := bs "-->"

/-- How much of the text `r` behind `<!--` the second and third alternative of minify/html.go:16 match: `.*?-->`
within the line, or else any character and more up to `-->`. -/
def commentLen (r : Bytes) : Option Nat :=
  match indexOf (r.takeWhile (· ≠ ch '\n')) commentEnd with
  | some i => some (i + 3)
  | none => (indexOf (r.drop 1) commentEnd).map (· + 4)

/-- minify/html.go:43-46: `htmlMinifier.ReplaceAll(data, []byte{})`. -/
def html (s : Bytes) : Bytes :=
  match s with
  | [] => []
  | c :: r =>
    if c = ch '\n' then html r
    else if c = ch '\r' ∧ r.head? = some (ch '\n') then html (r.drop 1)
    else if c = ch '<' ∧ r.take 3 = bs "!--" then
      match commentLen (r.drop 3) with
      | some n => html (r.drop (3 + n))
      | none => c :: html r
    else c :: html r
termination_by s.length
decreasing_by all_goals simp <;> omega

/-- minify/css.go:37-46 `MinifyBytes` of `css`: the error of the minifier is dropped; `none` is the nil slice. -/
def cssBytes (min : Bytes → Option Bytes) (data : Bytes) : Option Bytes := min data

/-- What the minifiers use of a codec: its text or an error, and taking over a text. -/
structure Codec (S E : Type) where
  marshal : S → Except E Bytes
  unmarshal : S → Bytes → S × Option E

variable {S E : Type}

/-- minify/css.go:19-34 `Minify` of `css` -/
def cssMinify (k : Codec S E) (min : Bytes → Option Bytes) (s : S) : S × Option E :=
  match k.marshal s with
  | .error e => (s, some e)
  | .ok raw => k.unmarshal s ((cssBytes min raw).getD [])

/-- minify/html.go:23-38 `Minify` of `html` -/
def htmlMinify (k : Codec S E) (s : S) : S × Option E :=
  match k.marshal s with
  | .error e => (s, some e)
  | .ok raw => k.unmarshal s (html raw)

/-- minify/minify.go:31-44 `Minify`; `min` is the minifier for the codec's media type. -/
def minify (k : Codec S E) (min : Bytes → Option Bytes) (s : S) : S × Option E :=
  match k.marshal s with
  | .error e => (s, some e)
  | .ok raw =>
    match min raw with
    | none => (s, none)
    | some m => k.unmarshal s m

end Memar.Minify
