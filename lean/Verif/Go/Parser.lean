import Verif.Strings

/-!
# Package `go/parser`: services found in Go source files (`go/parser/package.go`, `go/parser/parse.go`)

The syntax tree is the result of `go/parser.ParseFile` of the Go standard library, which is a parameter. It is modelled as far as it is read here.
An identifier carries the place of the type declaration of the same file that it is resolved to (`Obj.Decl` when that is a type declaration).
The kinds of type expressions that are not looked into are one constructor. The package of a selector is an identifier in every type that
the standard parser accepts, so the type assertion at line 161 does not fail.

Panics, and recursion without end, are `none`. `IsExported` of the standard library is a parameter.
-/

namespace Memar.GoParser
open Memar

/-- Type expressions of Go. `other` stands for arrays, maps, interfaces, literals, functions and channels. -/
inductive Expr where
  | star (x : Expr)
  | sel (pkg name : Bytes)
  | ident (name : Bytes) (obj : Option Nat)
  | struct (fields : List (List Bytes × Expr))
  | other

/-- go/parser/parse.go:41-54 `Type`; the fields `Len`, `Tags` and `Comment` are never set, `File` is left out. -/
structure Ty where
  name : Bytes := []
  id : Nat := 0
  package : Option (Bytes × Bytes) := none
  typ : Bytes := []
  exported : Bool := false
  pointer : Bool := false
  inner : List Ty := []

/-- go/parser/package.go:188-193: the names of one field of a struct -/
def fieldNames (f : Expr → Option Ty) (e : Expr) : List Bytes → List Ty → Option (List Ty)
  | [], acc => some acc
  | n :: ns, acc => (f e).bind fun t => fieldNames f e ns (acc ++ [{ t with name := n, id := acc.length }])

/-- go/parser/package.go:184-194: the fields of a struct -/
def structFields (f : Expr → Option Ty) : List (List Bytes × Expr) → List Ty → Option (List Ty)
  | [], acc => some acc
  | (ns, e) :: fs, acc => (fieldNames f e ns acc).bind fun acc => structFields f fs acc

/-- go/parser/package.go:155-203 `parseType`. `decls` are the type declarations of the file, `imports` the map of imports. The number bounds the
depth of the recursion: `none` for every number is a recursion without end. -/
def parseType (decls : List Expr) (imports : Bytes → Option (Bytes × Bytes)) : Nat → Expr → Option Ty
  | 0, _ => none
  | k + 1, .star x => (parseType decls imports k x).map fun t => { t with pointer := true }
  | _ + 1, .sel p n => some { package := imports p, typ := n }
  | k + 1, .ident n obj =>
    match obj.bind fun i => decls[i]? with
    | some d => (parseType decls imports k d).map fun t => { typ := n, inner := t.inner }
    | none => some { typ := n }
  | k + 1, .struct fs => (structFields (parseType decls imports k) fs []).map fun inner => { inner := inner }
  | _ + 1, .other => some {}

/-- A function declaration: whether it has a receiver, which the code does not look at, and the groups of parameters and of results, as
`Params.List` and `Results.List` of the standard library hold them. -/
structure FuncDecl where
  recv : Bool
  name : Bytes
  params : List (List Bytes × Expr)
  results : Option (List (List Bytes × Expr))

/-- Declarations of a file; `types` is a declaration of types, `value` of constants, variables or imports. -/
inductive Decl where
  | types (specs : List (Bytes × Expr))
  | value
  | func (d : FuncDecl)

/-- A parsed file: its package name, imports (given name and path) and declarations. -/
structure Ast where
  package : Bytes
  imports : List (Option Bytes × Bytes)
  decls : List Decl

/-- go/parser/parse.go:30-38 `Function`, as far as it is set -/
structure Function where
  name : Bytes
  param : Option Ty
  result : Option Ty
  err : Option Ty

/-- go/parser/package.go:14-23 `Package`, as far as it is set; an import is its package name and its path -/
structure Package where
  name : Bytes
  files : Bytes → Option Bytes
  imports : Bytes → Option (Bytes × Bytes)
  functions : Bytes → Option Function
  types : Bytes → Option Ty

/-- go/parser/package.go:26-32 `Init` -/
def Package.init (p : Package) : Package :=
  { p with files := fun _ => none, imports := fun _ => none, functions := fun _ => none, types := fun _ => none }

/-- Assignment to an entry of a map -/
def set {α : Type} (m : Bytes → Option α) (k : Bytes) (v : α) : Bytes → Option α := fun x => if x = k then some v else m x

/-- Go `path.Base` -/
def pathBase (s : Bytes) : Bytes :=
  if s = [] then bs "."
  else
    let t := (s.reverse.dropWhile (· == ch '/')).takeWhile (· != ch '/')
    if t = [] then bs "/" else t.reverse

/-- go/parser/package.go:70-84: one import -/
def addImport (p : Package) (i : Option Bytes × Bytes) : Package :=
  match i.1 with
  | some n => { p with imports := set p.imports n (pathBase i.2, i.2) }
  | none => { p with imports := set p.imports (pathBase i.2) (pathBase i.2, i.2) }

/-- go/parser/package.go:96-101: one declared type -/
def addType (exported : Bytes → Bool) (decls : List Expr) (k : Nat) (p : Package) (s : Bytes × Expr) : Option Package :=
  (parseType decls p.imports k s.2).map fun t =>
    { p with types := set p.types s.1 { t with name := s.1, exported := exported s.1 } }

def addTypes (exported : Bytes → Bool) (decls : List Expr) (k : Nat) : List (Bytes × Expr) → Package → Option Package
  | [], p => some p
  | s :: ss, p => (addType exported decls k p s).bind fun p => addTypes exported decls k ss p

/-- go/parser/package.go:133-143: one name of a result -/
def resultNames (exported : Bytes → Bool) (f : Expr → Option Ty) (e : Expr) : List Bytes → Function → Option Function
  | [], fn => some fn
  | n :: ns, fn => (f e).bind fun t =>
      let t := { t with name := n, exported := exported n }
      resultNames exported f e ns (if t.typ = bs "error" then { fn with err := some t } else { fn with result := some t })

/-- go/parser/package.go:133-145: the groups of results -/
def results (exported : Bytes → Bool) (f : Expr → Option Ty) : List (List Bytes × Expr) → Function → Option Function
  | [], fn => some fn
  | (ns, e) :: rs, fn => (resultNames exported f e ns fn).bind fun fn => results exported f rs fn

/-- go/parser/package.go:105-148: one function declaration; `Names[0]` of a group without names is a panic -/
def addFunc (exported : Bytes → Bool) (decls : List Expr) (k : Nat) (p : Package) (d : FuncDecl) : Option Package :=
  if exported d.name = false then some p
  else
    match d.params with
    | [(ns, e), _] =>
      (parseType decls p.imports k e).bind fun t =>
        match ns with
        | [] => none
        | n :: _ =>
          (results exported (parseType decls p.imports k) (d.results.getD [])
            { name := d.name, param := some { t with name := n, exported := exported n }, result := none, err := none }).map fun fn =>
              { p with functions := set p.functions d.name fn }
    | _ => some p

/-- go/parser/package.go:86-150: the declarations in order -/
def addDecls (exported : Bytes → Bool) (decls : List Expr) (k : Nat) : List Decl → Package → Option Package
  | [], p => some p
  | .types ss :: ds, p => (addTypes exported decls k ss p).bind fun p => addDecls exported decls k ds p
  | .value :: ds, p => addDecls exported decls k ds p
  | .func d :: ds, p => (addFunc exported decls k p d).bind fun p => addDecls exported decls k ds p

/-- The type declarations that identifiers of the file are resolved to, in order -/
def typeSpecs : List Decl → List Expr
  | [] => []
  | .types ss :: ds => ss.map (·.2) ++ typeSpecs ds
  | _ :: ds => typeSpecs ds

/-- go/parser/package.go:69-153 `parseFile` -/
def parseFile (exported : Bytes → Bool) (k : Nat) (p : Package) (a : Ast) : Option Package :=
  addDecls exported (typeSpecs a.decls) k a.decls (a.imports.foldl addImport p)

/-- go/parser/package.go:40-67 `Parse`; the second part is whether an error is returned. -/
def Package.parse (exported : Bytes → Bool) (std : Bytes → Option Ast) (k : Nat) (p : Package) (name data : Bytes) : Option (Package × Bool) :=
  let p := { p with files := set p.files name data }
  if (bs ".go").isSuffixOf name = true ∨ (bs "_test.go").isSuffixOf name = false then
    match std data with
    | none => some (p, true)
    | some a => (parseFile exported k { p with name := a.package } a).map fun p => (p, false)
  else some (p, false)

end Memar.GoParser
