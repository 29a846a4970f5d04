import Verif.Syllab.PropsDyn
import Verif.Syllab.Props

/-!
# Package `syllab`: the generator of encoders and decoders

`CompleteMethods` (syllab/generator.go) reads a Go source file and writes the bodies of the encoding methods of its types. Go
source enters the model as the part of its syntax tree the generator looks at; the parser is not modelled. The text the
generator writes is kept as a list of lines, each line as the call it makes; how a Go compiler formats and accepts text is not
modelled, except the rule that a declared variable must be used. `getSLIAsString` writes a number followed by the lengths
of the nested fields met so far: an offset is kept as that number and that list of fields.

The second half says what the lines do when they run, through the modelled functions of package `syllab`.
-/

namespace Memar.Syllab.Gen
open Memar Memar.Binary Spec

/-! ## Syntax the generator looks at -/

/-- The type of the elements of a slice or array (go/ast): a name, or anything else. -/
inductive Elem where
  | name (s : String)
  | other
  deriving DecidableEq, Repr

/-- The length of an array type: a literal `strconv.ParseUint` reads in base 10, another literal, or another expression (such as the
name of a constant). -/
inductive ALen where
  | num (n : Nat)
  | badLiteral
  | expr
  deriving DecidableEq, Repr

/-- The type of a field (go/ast), as far as syllab/generator.go:208-516 distinguishes types. -/
inductive FType where
  /-- a name (`*ast.Ident`) -/
  | ident (name : String)
  | slice (e : Elem)
  | array (len : ALen) (e : Elem)
  /-- an anonymous struct, with the name of its first field; `none` when it has no named first field -/
  | struct (first : Option String)
  /-- a type of another package -/
  | selector
  | map
  /-- a function, interface or channel -/
  | untyped
  /-- a pointer or any other type: the switch has no case for it -/
  | other
  deriving DecidableEq, Repr

/-- A line of a struct: one or more names with one type; an embedded field has no name. `tag` is the value of the key `syllab` of
its tag: `reflect.StructTag.Get` is not modelled. -/
structure Field where
  names : List String
  typ : FType
  tag : Option String := none
  deriving DecidableEq, Repr

/-- The declared type of a name. -/
inductive TDecl where
  | struct (fields : List Field)
  | other
  deriving DecidableEq, Repr

/-! ## Lines of generated code -/

/-- The element types of slices the generator has code for. -/
inductive SlE where
  | bool | byte | int8 | uint16 | int16 | uint32 | int32 | uint64 | int64
  deriving DecidableEq, Repr

/-- What a generated call stores or loads. -/
inductive GTy where
  | sc (k : Kind)
  | bool
  | f32
  | f64
  | str
  | slice (e : SlE)
  | strSlice
  /-- an array of `n` elements of `w` bytes -/
  | arr (w n : Nat)
  | strArr
  | nested
  | selector
  deriving DecidableEq, Repr

/-- A call on the field `path` at an offset. -/
structure Ins where
  path : String
  ty : GTy
  off : Nat
  plus : List String
  deriving DecidableEq, Repr

/-- A line of a generated encoder. -/
inductive ELine where
  /-- syllab/generator.go:185 the allocation, as a comment -/
  | bufComment
  /-- syllab/generator.go:186 -/
  | hsiInit
  | call (i : Ins)
  | ret
  deriving DecidableEq, Repr

/-- A line of a generated decoder. -/
inductive DLine where
  /-- syllab/generator.go:178 `var add, ln uint32` -/
  | declare (vars : List String)
  /-- syllab/generator.go:179-182 -/
  | lenCheck
  | call (i : Ins) (noCopy : Bool)
  | ret
  deriving DecidableEq, Repr

/-- A line of a generated heap length. -/
inductive HLine where
  | blank
  /-- `ln += uint32(len(path) * m)` -/
  | len (path : String) (m : Nat)
  /-- the loop over the strings of `path` -/
  | lens (path : String)
  | nested (path : String)
  | ret
  deriving DecidableEq, Repr

/-! ## The generator -/

/-- The two errors of syllab/error.go the generator returns. -/
inductive GErr where
  | neededTypeNotExist
  | arrayLen
  deriving DecidableEq, Repr

/-- syllab/generator.go:147-158 `syllabMaker` -/
structure SM where
  noCopy : Bool
  types : List (String × TDecl) := []
  rn : String := ""
  frn : String := ""
  rtn : String := ""
  lsi : Nat := 0
  stackSize : List String := []
  heap : List HLine := []
  enc : List ELine := []
  dec : List DLine := []
  deriving DecidableEq, Repr

/-- syllab/generator.go:160-166 `reset` -/
def SM.reset (sm : SM) : SM := { sm with lsi := 0, stackSize := [], heap := [], enc := [], dec := [] }

/-- syllab/generator.go:523-528 `getSLIAsString(0)` together with the call it is part of -/
def SM.ins (sm : SM) (name : String) (ty : GTy) : Ins := ⟨sm.frn ++ name, ty, sm.lsi, sm.stackSize⟩

/-- One encoder and one decoder line for the field at the present offset. -/
def SM.emit (sm : SM) (name : String) (ty : GTy) : SM :=
  { sm with enc := sm.enc ++ [.call (sm.ins name ty)], dec := sm.dec ++ [.call (sm.ins name ty) sm.noCopy] }
/-- A line of the heap length. -/
def SM.heapLine (sm : SM) (h : HLine) : SM := { sm with heap := sm.heap ++ [h] }
/-- `sm.LSI += n`; the model's number does not wrap at 2^64. -/
def SM.advance (sm : SM) (n : Nat) : SM := { sm with lsi := sm.lsi + n }

/-- syllab/generator.go:222-305: the names of element types of slices that have a case, with the code and the factor of the
heap length; `uint64` has no heap line. -/
def sliceCase (name : String) : Option (SlE × Option Nat) :=
  if name = "bool" then some (.bool, some 1)
  else if name = "byte" ∨ name = "uint8" then some (.byte, some 1)
  else if name = "int8" then some (.int8, some 1)
  else if name = "uint16" then some (.uint16, some 2)
  else if name = "int16" then some (.int16, some 2)
  else if name = "uint32" then some (.uint32, some 4)
  else if name = "int32" then some (.int32, some 4)
  else if name = "uint64" then some (.uint64, none)
  else if name = "int64" then some (.int64, some 8)
  else none

/-- syllab/generator.go:213-324, the slice generator -/
def SM.slice (sm : SM) (name : String) (e : Elem) : SM :=
  let sm' := match e with
    | .other => sm
    | .name s =>
      match sliceCase s with
      | some (t, some m) => (sm.emit name (.slice t)).heapLine (.len (sm.frn ++ name) m)
      | some (t, none) => sm.emit name (.slice t)
      | none =>
        if s = "string" then (sm.emit name .strSlice).heapLine (.lens (sm.frn ++ name))
        else sm
  sm'.advance 8

/-- syllab/generator.go:344-400: the element size of the array types with a case (first number), and what the offset advances by per
element (second number). -/
def arrayCase (name : String) : Option (Nat × Nat) :=
  if name = "bool" then some (1, 1)
  else if name = "byte" ∨ name = "uint8" then some (1, 1)
  else if name = "int8" then some (1, 1)
  else if name = "uint16" then some (2, 2)
  else if name = "int16" then some (2, 2)
  else if name = "uint32" then some (4, 4)
  else if name = "int32" then some (4, 4)
  else if name = "uint64" then some (8, 8)
  else if name = "int64" then some (8, 8)
  else if name = "float32" then some (4, 4)
  else if name = "float64" then some (8, 4)
  else none

/-- syllab/generator.go:326-404, the array generator, for a length that has been read -/
def SM.array (sm : SM) (name : String) (n : Nat) (e : Elem) : SM :=
  match e with
  | .other => sm
  | .name s =>
    match arrayCase s with
    | some (w, a) => (sm.emit name (.arr w n)).advance (n * a)
    | none =>
      if s = "string" then
        { sm with enc := sm.enc ++ [.call (sm.ins name .strArr)], heap := sm.heap ++ [.lens (sm.frn ++ name)] }
      else sm

/-- syllab/generator.go:416-478: the names of field types with a case of their own -/
def scalarCase (name : String) : Option (GTy × Nat) :=
  if name = "bool" then some (.bool, 1)
  else if name = "byte" then some (.sc .byte, 1)
  else if name = "int8" then some (.sc .int8, 1)
  else if name = "uint8" then some (.sc .uint8, 1)
  else if name = "int16" then some (.sc .int16, 2)
  else if name = "uint16" then some (.sc .uint16, 2)
  else if name = "int32" then some (.sc .int32, 4)
  else if name = "uint32" then some (.sc .uint32, 4)
  else if name = "int64" then some (.sc .int64, 8)
  else if name = "uint64" then some (.sc .uint64, 8)
  else if name = "float32" then some (.f32, 4)
  else if name = "float64" then some (.f64, 8)
  else none

/-- syllab/generator.go:415-495, a field whose type is a name -/
def SM.ident (sm : SM) (name : String) (s : String) : SM :=
  if s = "int" ∨ s = "uint" then sm
  else match scalarCase s with
  | some (t, n) => (sm.emit name t).advance n
  | none =>
    if s = "string" then ((sm.emit name .str).heapLine (.len (sm.frn ++ name) 1)).advance 8
    else
      let sm' := (sm.emit name .nested).heapLine (.nested (sm.frn ++ name))
      { sm' with stackSize := sm'.stackSize ++ [sm.frn ++ name] }

/-- syllab/generator.go:496-501, a field whose type is of another package -/
def SM.selector (sm : SM) (name : String) : SM :=
  let sm' := (sm.emit name .selector).heapLine (.nested (sm.frn ++ name))
  { sm' with stackSize := sm'.stackSize ++ [sm.frn ++ name] }

/-- How a run of `make` ends: with an error or without, with a panic, or not within the allowed depth of calls. -/
inductive MRes where
  | done (sm : SM) (err : Option GErr)
  | panic
  | deeper
  deriving DecidableEq, Repr

/-- syllab/generator.go:200-518, the two loops over the fields; `mk` is the recursive call of `make`, `err` the named result. -/
def fieldsLoop (mk : SM → MRes) : List (String × FType) → SM → Option GErr → MRes
  | [], sm, err => .done sm err
  | (name, t) :: rest, sm, err =>
    match t with
    | .untyped | .map | .other => fieldsLoop mk rest sm err
    | .slice e => fieldsLoop mk rest (sm.slice name e) err
    | .array .expr _ => .panic
    | .array .badLiteral _ => .done sm (some .arrayLen)
    | .array (.num n) e => fieldsLoop mk rest (sm.array name n e) err
    | .ident s => fieldsLoop mk rest (sm.ident name s) err
    | .selector => fieldsLoop mk rest (sm.selector name) err
    | .struct none => .panic
    | .struct (some first) =>
      match mk { sm with frn := sm.frn ++ name ++ ".", rtn := first } with
      | .done sm' err' => fieldsLoop mk rest { sm' with frn := sm.frn } err'
      | .panic => .panic
      | .deeper => .deeper

/-- syllab/generator.go:200-206 and 530-537 `checkFieldTag`: the named fields of a struct, without those tagged `syllab:"-"` -/
def members (fs : List Field) : List (String × FType) :=
  (fs.filter fun f => f.tag ≠ some "-").flatMap fun f => f.names.map fun n => (n, f.typ)

/-- syllab/generator.go:176-190 the common lines, written while the offset is still 0 -/
def SM.header (sm : SM) : SM :=
  if sm.lsi = 0 then
    { sm with dec := sm.dec ++ [.declare ["add", "ln"], .lenCheck], enc := sm.enc ++ [.bufComment, .hsiInit], heap := sm.heap ++ [.blank] }
  else sm

/-- syllab/generator.go:168-521 `make`, allowed `fuel` nested calls -/
def make : Nat → SM → MRes
  | 0, _ => .deeper
  | fuel + 1, sm =>
    match sm.types.lookup sm.rtn with
    | none => .done sm (some .neededTypeNotExist)
    | some .other => .done sm.header none
    | some (.struct fs) => fieldsLoop (make fuel) (members fs) sm.header none

/-- The receiver of a method: its name, if it has one, and its type; `ptr` when it is a pointer to a named type. -/
structure Recv where
  name : Option String
  ptr : Bool
  typ : String
  deriving DecidableEq, Repr

/-- A declaration of the file: types, a function, or a method. -/
inductive Decl where
  | types (ts : List (String × TDecl))
  | func
  | method (r : Recv) (name : String)
  deriving DecidableEq, Repr

/-- The new body of a method. -/
inductive Body where
  | decoder (l : List DLine)
  | encoder (l : List ELine)
  | stackLen (off : Nat) (plus : List String)
  | heapLen (l : List HLine)
  | len (rn : String)
  deriving DecidableEq, Repr

/-- syllab/generator.go:105-137: the body a method gets, by its name -/
def bodyFor (sm : SM) (m : String) : Option Body :=
  if m = "syllabDecoder" ∨ m = "SyllabDecoder" then some (.decoder sm.dec)
  else if m = "syllabEncoder" ∨ m = "SyllabEncoder" then some (.encoder sm.enc)
  else if m = "syllabStackLen" ∨ m = "SyllabStackLen" then some (.stackLen sm.lsi sm.stackSize)
  else if m = "syllabHeapLen" ∨ m = "SyllabHeapLen" then some (.heapLen sm.heap)
  else if m = "syllabLen" ∨ m = "SyllabLen" then some (.len sm.rn)
  else none

/-- How `CompleteMethods` ends: with the replaced bodies (by the number of the declaration), with an error and nothing replaced, with
a panic, or not within the allowed depth. -/
inductive Done where
  | replaced (l : List (Nat × Body))
  | error (e : GErr)
  | panic
  | deeper
  deriving DecidableEq, Repr

/-- syllab/generator.go:100-102 the closing lines -/
def SM.close (sm : SM) : SM := { sm with enc := sm.enc ++ [.ret], dec := sm.dec ++ [.ret], heap := sm.heap ++ [.ret] }

/-- syllab/generator.go:88-103: the code the methods of the next receiver take theirs from -/
def SM.prepare (fuel : Nat) (sm : SM) (r : Recv) : MRes :=
  match r.name with
  | none => .panic
  | some rn =>
    if sm.rn ≠ rn then
      if r.ptr = false then .panic
      else
        match make fuel { sm.reset with rn := rn, frn := rn ++ ".", rtn := r.typ } with
        | .done sm' none => .done sm'.close none
        | x => x
    else .done sm none

/-- syllab/generator.go:78-140, the loop over the declarations -/
def declsLoop (fuel : Nat) : Nat → List Decl → SM → List (Nat × Body) → Done
  | _, [], _, out => .replaced out
  | i, .types ts :: rest, sm, out => declsLoop fuel (i + 1) rest { sm with types := ts.reverse ++ sm.types } out
  | i, .func :: rest, sm, out => declsLoop fuel (i + 1) rest sm out
  | i, .method r m :: rest, sm, out =>
    match sm.prepare fuel r with
    | .panic => .panic
    | .deeper => .deeper
    | .done _ (some e) => .error e
    | .done sm' none => declsLoop fuel (i + 1) rest sm' (out ++ ((bodyFor sm' m).map fun b => (i, b)).toList)

/-- syllab/generator.go:63-145 `CompleteMethods` of a parsed file -/
def completeMethods (fuel : Nat) (noCopy : Bool) (ds : List Decl) : Done := declsLoop fuel 0 ds { noCopy := noCopy } []

/-! ## What the lines do -/

/-- The value of a field. Numbers and floats are kept as the number of their bit pattern; an array as its memory. -/
inductive FV where
  | num (n : Nat)
  | bool (b : Bool)
  | dyn (v : Val)
  | strs (s : List Bytes)
  | arr (img : Bytes)
  | obj (n : Nat)
  deriving DecidableEq, Repr

/-- What a line refers to: the fields' values, the methods of nested fields, and the numeric conversions of floats. -/
structure Env where
  val : String → FV
  nestStack : String → Nat
  nestHeap : String → Nat
  nestEnc : String → Bytes → U32 → U32 → Option (Bytes × U32)
  nestDec : String → Bytes → U32 → Option FV
  c32 : FloatConv Nat 32
  c64 : FloatConv Nat 64

/-- An offset as a number: the constant and the stack lengths of the nested fields before it. -/
def offset (e : Env) (off : Nat) (plus : List String) : Nat := off + (plus.map e.nestStack).sum

/-- An empty value of the slice type. -/
def SlE.empty : SlE → Val
  | .bool => .bools []
  | .byte | .int8 => .bytes []
  | .uint16 | .int16 => .u16s []
  | .uint32 | .int32 => .u32s []
  | .uint64 | .int64 => .u64s []

/-- syllab/decode-unsafe.go:22-82: the getters without copying, for values of the type of `v` -/
def unsafeGet (v : Val) (p : Bytes) (st : U32) : Option Val :=
  match v with
  | .str _ => (unsafeGetByteArray p st).map .str
  | .bytes _ => (unsafeGetByteArray p st).map .bytes
  | .bools _ => (unsafeGetByteArray p st).map fun b => .bools (b.map fun x => x != 0)
  | .u16s _ => (unsafeGetDyn 2 p st).map .u16s
  | .u32s _ => (unsafeGetDyn 4 p st).map .u32s
  | .u64s _ => (unsafeGetDyn 8 p st).map .u64s
  | .c128s _ => (unsafeGetDyn 16 p st).map .c128s

/-- One generated encoder call. -/
def runEnc (e : Env) (i : Ins) (buf : Bytes) (hsi : U32) : Option (Bytes × U32) :=
  let o := BitVec.ofNat 32 (offset e i.off i.plus)
  match i.ty, e.val i.path with
  | .sc k, .num n => (k.set buf o (BitVec.ofNat _ n)).map fun b => (b, hsi)
  | .bool, .bool b => (setBool buf o b).map fun p => (p, hsi)
  | .f32, .num n => (setFloat32 e.c32 buf o n).map fun p => (p, hsi)
  | .f64, .num n => (setFloat64 e.c64 buf o n).map fun p => (p, hsi)
  | .str, .dyn v => v.set buf o hsi
  | .slice _, .dyn v => v.set buf o hsi
  | .strSlice, .strs s => setStringArray buf s o hsi
  | .strArr, .strs s => setStringArray buf s o hsi
  | .arr _ _, .arr img => (setArray buf o img).map fun p => (p, hsi)
  | .nested, _ => e.nestEnc i.path buf o hsi
  | .selector, _ => e.nestEnc i.path buf o hsi
  | _, _ => none

/-- One generated decoder call: the value the field is set to. An array keeps what the buffer is too short for; it starts as zeros.
`syllab.UnsafeStringArray` is called `UnsafeGetStringArray` in the package, so that line does not compile: `none`. -/
def runDec (e : Env) (i : Ins) (noCopy : Bool) (buf : Bytes) : Option FV :=
  let o := BitVec.ofNat 32 (offset e i.off i.plus)
  match i.ty with
  | .sc k => (k.get buf o).map fun v => .num v.toNat
  | .bool => (getBool buf o).map .bool
  | .f32 => (getFloat32 e.c32 buf o).map .num
  | .f64 => (getFloat64 e.c64 buf o).map .num
  | .str => if noCopy then (unsafeGet (.str []) buf o).map .dyn else ((Val.str []).get buf o).map .dyn
  | .slice t => if noCopy then (unsafeGet t.empty buf o).map .dyn else (t.empty.get buf o).map .dyn
  | .strSlice => if noCopy then none else (getStringArray buf o).map .strs
  | .arr w n => (sliceFrom buf o.toNat).map fun r => .arr (goCopy (List.replicate (n * w) 0#8) (r.take (r.length / w * w)))
  | .strArr => none
  | .nested => e.nestDec i.path buf o
  | .selector => e.nestDec i.path buf o

/-- The generated heap length, in `int` without wrapping. -/
def heapLen (e : Env) : List HLine → Nat
  | [] => 0
  | .blank :: r => heapLen e r
  | .ret :: _ => 0
  | .len p m :: r =>
    (match e.val p with
      | .dyn v => v.count * m
      | _ => 0) + heapLen e r
  | .lens p :: r =>
    (match e.val p with
      | .strs s => contentSize s
      | _ => 0) + heapLen e r
  | .nested p :: r => e.nestHeap p + heapLen e r

/-- The generated encoder on a buffer, with `stack` its generated stack length. -/
def encode (e : Env) (stack : Nat) : List ELine → Bytes → U32 → Option (Bytes × U32)
  | [], buf, hsi => some (buf, hsi)
  | .bufComment :: r, buf, hsi => encode e stack r buf hsi
  | .hsiInit :: r, buf, _ => encode e stack r buf (BitVec.ofNat 32 stack)
  | .call i :: r, buf, hsi => (runEnc e i buf hsi).bind fun x => encode e stack r x.1 x.2
  | .ret :: _, buf, hsi => some (buf, hsi)

/-- How a generated decoder ends: the values set, in order, or the error for a short buffer. -/
inductive Dec where
  | ok (l : List (String × FV))
  | tooSmall
  deriving DecidableEq, Repr

/-- The generated decoder on a buffer. -/
def decode (e : Env) (stack : Nat) (buf : Bytes) : List DLine → List (String × FV) → Option Dec
  | [], out => some (.ok out)
  | .declare _ :: r, out => decode e stack buf r out
  | .lenCheck :: r, out => if buf.length < stack then some .tooSmall else decode e stack buf r out
  | .call i u :: r, out => (runDec e i u buf).bind fun v => decode e stack buf r (out ++ [(i.path, v)])
  | .ret :: _, out => some (.ok out)

/-- The local variables a decoder line reads: none of the lines the generator writes reads one. -/
def DLine.uses : DLine → List String
  | .declare _ => []
  | .lenCheck => []
  | .call _ _ => []
  | .ret => []

end Memar.Syllab.Gen
