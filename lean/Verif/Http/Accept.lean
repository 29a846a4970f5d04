import Verif.File.Model

/-!
# Package `net/http`: the Accept header (header-accept.go)

`Q` stands for `float64`; `gt` is Go's `>` on it and `parseFloat` is `strconv.ParseFloat(s, 64)` (`none` =
an error is reported). Both are parameters.
-/

namespace Memar.Http
open Memar Memar.File

/-- net/http/header-accept.go:11-14 `mime` -/
structure Mime (Q : Type) where
  media : Bytes
  quality : Q
  deriving DecidableEq, Repr

variable {Q : Type}

/-- net/http/header-accept.go:17-26 `insertMime` -/
def insertMime (gt : Q → Q → Bool) (l : List (Mime Q)) (e : Mime Q) : List (Mime Q) :=
  match l with
  | [] => [e]
  | each :: r => if gt e.quality each.quality then e :: each :: r else each :: insertMime gt r e

/-- Go `strings.Trim(s, " ")` -/
def trimSpaces (s : Bytes) : Bytes :=
  ((s.dropWhile (· = ch ' ')).reverse.dropWhile (· = ch ' ')).reverse

/-- net/http/header-accept.go:31-45: one turn of the loop of `sortMimes`, before the insertion -/
def mimeOf (one : Q) (parseFloat : Bytes → Option Q) (each : Bytes) : Option (Mime Q) :=
  match split (trimSpaces each) (ch ';') with
  | [] => none
  | [t] => some ⟨t, one⟩
  | t :: p :: _ =>
    match split p (ch '=') with
    | [_, v] => (parseFloat v).map fun f => ⟨t, f⟩
    | _ => none

/-- net/http/header-accept.go:29-48 the loop of `sortMimes` -/
def sortLoop (gt : Q → Q → Bool) (one : Q) (parseFloat : Bytes → Option Q) (sorted : List (Mime Q)) :
    List Bytes → List (Mime Q)
  | [] => sorted
  | each :: rest =>
    match mimeOf one parseFloat each with
    | some m => sortLoop gt one parseFloat (insertMime gt sorted m) rest
    | none => sortLoop gt one parseFloat sorted rest

/-- net/http/header-accept.go:29-48 `sortMimes` -/
def sortMimes (gt : Q → Q → Bool) (one : Q) (parseFloat : Bytes → Option Q) (accept : Bytes) : List (Mime Q) :=
  sortLoop gt one parseFloat [] (split accept (ch ','))

end Memar.Http
