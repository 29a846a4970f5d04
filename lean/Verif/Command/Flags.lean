import Verif.Command.Model

/-!
# The rest of `FlagSet`, the root of a command and the paths on the command line

`filepath.Rel` is a parameter: the path from one directory to another, or an error.
-/

namespace Memar.Command
open Memar

/-- operation/command/flag.go:40-45 `Reinit` -/
def reinit (_ : FlagSet) : FlagSet := ⟨[], [], []⟩

/-- operation/command/flag.go:27-39 `Init` of a set that may have been used: `parsed` stays. -/
def initAgain (s : FlagSet) (fields : List Field) (arguments : List Bytes) : Option FlagSet :=
  if checkFields fields then some ⟨fields, s.sets, arguments⟩ else none

/-- operation/command/flag.go:63 `NFlag` -/
def nFlag (s : FlagSet) : Nat := s.fields.length

/-- operation/command/flag.go:66 `NArg` -/
def nArg (s : FlagSet) : Nat := s.args.length

/-- operation/command/flag.go:69 `Args` -/
def args (s : FlagSet) : List Bytes := s.args

/-- operation/command/flag.go:74-79 `Arg` -/
def arg (s : FlagSet) (i : Int) : Bytes :=
  if i < 0 ∨ i ≥ s.args.length then [] else s.args.getD i.toNat []

/-- The loops of operation/command/flag.go:83-101: `fn` changes the state of the caller and says whether to break off. -/
def visitList {σ : Type} (fn : σ → Field → σ × Bool) (st : σ) : List Field → σ
  | [] => st
  | f :: r => if (fn st f).2 then (fn st f).1 else visitList fn (fn st f).1 r

/-- operation/command/flag.go:83-90 `VisitAll` -/
def visitAll {σ : Type} (fn : σ → Field → σ × Bool) (st : σ) (s : FlagSet) : σ := visitList fn st s.fields

/-- operation/command/flag.go:94-101 `Visit` -/
def visit {σ : Type} (fn : σ → Field → σ × Bool) (st : σ) (s : FlagSet) : σ := visitList fn st (s.sets.map (·.1))

/-- A command seen from below: its name and its parent. -/
inductive Up where
  | mk (name : Bytes) (parent : Option Up)

def Up.parent : Up → Option Up
  | .mk _ p => p

/-- operation/command/serve.go:53-62, the loop of `Root` with the variable `root`; a method of a nil interface panics (`none`). The
loop ends because parents end. -/
def rootLoop (root : Option Up) : Option Up :=
  match root with
  | none => none
  | some (.mk n (some p)) => rootLoop (some p)
  | some (.mk n none) => some (.mk n none)

/-- operation/command/serve.go:53-62 `Root`: the named result `root` starts as nil and the argument is not used. -/
def root (_ : Up) : Option Up := rootLoop none

/-- operation/command/path.go:42-47 `ShortPath` -/
def shortPath (rel : Bytes → Bytes → Option Bytes) (cwd path : Bytes) : Bytes :=
  match rel cwd path with
  | some r => if r.length < path.length then r else path
  | none => path

/-- operation/command/path.go:51-61 `RelPaths`: the loop with its `out`. -/
def relPathsLoop (rel : Bytes → Bytes → Option Bytes) (cwd : Bytes) (out : List Bytes) : List Bytes → List Bytes
  | [] => out
  | p :: ps =>
    match rel cwd p with
    | some r => if r.length < p.length then relPathsLoop rel cwd (out ++ [r]) ps else relPathsLoop rel cwd (out ++ [p]) ps
    | none => relPathsLoop rel cwd (out ++ [p]) ps

/-- operation/command/path.go:51-61 `RelPaths` -/
def relPaths (rel : Bytes → Bytes → Option Bytes) (cwd : Bytes) (paths : List Bytes) : List Bytes :=
  relPathsLoop rel cwd [] paths

/-- operation/command/path.go:65-68 `IsTestFile` -/
def isTestFile (file : Bytes) : Bool := (bs "_test.go").isSuffixOf file

end Memar.Command
