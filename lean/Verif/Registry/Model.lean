import Verif.Base
import Verif.Strings

/-!
# Registries: errors/errors.go, operation/services/services.go, mediatypes/media-types.go,
compress-types/compress-types.go; and error/*.go

A Go map is a function to `Option`.  The registered objects are values of a type `α`; what the
registries ask of them (identifier, text, …) are functions on it.
-/

namespace Memar.Registry
open Memar

/-- Go `m[k] = v` -/
def put {κ ν} [DecidableEq κ] (m : κ → Option ν) (k : κ) (v : ν) : κ → Option ν :=
  fun x => if x = k then some v else m x
/-- Go `delete(m, k)` -/
def del {κ ν} [DecidableEq κ] (m : κ → Option ν) (k : κ) : κ → Option ν :=
  fun x => if x = k then none else m x

/-- What the registries ask of an object. -/
structure Keys (α : Type) where
  id : α → BitVec 64
  text : α → Bytes

/-- A call on a registry. -/
inductive Op (α : Type)
  | register (x : α)
  | remove (x : α)

/-! ## errors -/
namespace Errors

/-- errors/errors.go:19-22 -/
structure State (α : Type) where
  byID : BitVec 64 → Option α
  byMediaType : Bytes → Option α

/-- errors/errors.go:14-17 -/
def init {α} : State α := ⟨fun _ => none, fun _ => none⟩

inductive Err
  | notProvideIdentifier | duplicateIdentifier
deriving DecidableEq, Repr

/-- errors/errors.go:24-41; `dev` is `protocol.AppMode_Dev`. -/
def register {α} (K : Keys α) (dev : Bool) (s : State α) (x : α) : State α × Option Err :=
  if dev && K.id x == 0#64 then (s, some .notProvideIdentifier)
  else if dev && (s.byID (K.id x)).isSome then (s, some .duplicateIdentifier)
  else (⟨put s.byID (K.id x) x, put s.byMediaType (K.text x) x⟩, none)

/-- errors/errors.go:43-47 -/
def unRegister {α} (K : Keys α) (s : State α) (x : α) : State α :=
  ⟨del s.byID (K.id x), del s.byMediaType (K.text x)⟩

/-- What a lookup returns: nil, the error ErrNotFound, or the registered error. -/
inductive Lookup (α : Type)
  | nil | notFound | found (x : α)

/-- errors/errors.go:50-60 -/
def getByID {α} (s : State α) (id : BitVec 64) : Lookup α :=
  if id = 0#64 then .nil else match s.byID id with
    | some x => .found x
    | none => .notFound

/-- errors/errors.go:63-70 -/
def getByMediaType {α} (s : State α) (mt : Bytes) : Lookup α :=
  match s.byMediaType mt with
  | some x => .found x
  | none => .notFound

/-- The registry after a call. -/
def step {α} (K : Keys α) (dev : Bool) (s : State α) : Op α → State α
  | .register x => (register K dev s x).1
  | .remove x => unRegister K s x

/-- The registry after a history. -/
def run {α} (K : Keys α) (dev : Bool) (h : List (Op α)) : State α := h.foldl (step K dev) init

end Errors

/-! ## services -/
namespace Services

/-- operation/services/services.go:30-34 -/
structure State (α : Type) where
  byRegisterTime : List (Option α)
  byID : BitVec 64 → Option α
  byMediaType : Bytes → Option α

/-- operation/services/services.go:24-28: the slice is made with the length 512. -/
def init {α} : State α := ⟨List.replicate 512 none, fun _ => none, fun _ => none⟩

inductive Err
  | notProvideIdentifier | notFound
deriving DecidableEq, Repr

/-- operation/services/services.go:60-66 -/
def getByID {α} (s : State α) (id : BitVec 64) : Option α × Option Err :=
  (s.byID id, if s.byID id = none then some .notFound else none)

/-- operation/services/services.go:71-77 -/
def getByMediaType {α} (s : State α) (mt : Bytes) : Option α × Option Err :=
  (s.byMediaType mt, if s.byMediaType mt = none then some .notFound else none)

/-- operation/services/services.go:87-107; `log.Fatal` only logs (log/log-helpers.go:63-67) and the
error is dropped by the caller. -/
def registerServiceByMediaType {α} (K : Keys α) (s : State α) (x : α) : State α :=
  { s with
    byID := match (getByID s (K.id x)).1 with
      | some _ => s.byID
      | none => put s.byID (K.id x) x
    byMediaType := match (getByMediaType s (K.text x)).1 with
      | some _ => s.byMediaType
      | none => put s.byMediaType (K.text x) x }

/-- operation/services/services.go:41-50 -/
def register {α} (K : Keys α) (s : State α) (x : α) : State α × Option Err :=
  if K.id x = 0#64 then (s, some .notProvideIdentifier)
  else
    ({ registerServiceByMediaType K s x with byRegisterTime := s.byRegisterTime ++ [some x] }, none)

/-- operation/services/services.go:80-85 -/
def delete {α} (K : Keys α) (s : State α) (x : α) : State α :=
  { s with byID := del s.byID (K.id x), byMediaType := del s.byMediaType (K.text x) }

/-- operation/services/services.go:55 -/
def services {α} (s : State α) : List (Option α) := s.byRegisterTime

/-- The registry after a call. -/
def step {α} (K : Keys α) (s : State α) : Op α → State α
  | .register x => (register K s x).1
  | .remove x => delete K s x

/-- The registry after a history. -/
def run {α} (K : Keys α) (h : List (Op α)) : State α := h.foldl (step K) init

end Services

/-! ## media types and compress types -/
namespace Types

/-- What these registries ask of an object in addition.  For media types `mainType` and `subType`; for
compress types `mediaType` and `contentEncoding`. -/
structure TypeKeys (α : Type) extends Keys α where
  fileExtension : α → Bytes
  mainType : α → Bytes
  subType : α → Bytes
  mediaType : α → Bytes
  contentEncoding : α → Bytes

/-- mediatypes/media-types.go:26-30 -/
structure MState (α : Type) where
  byMediaType : Bytes → Option α
  byID : BitVec 64 → Option α
  byFileExtension : Bytes → Option α

/-- mediatypes/media-types.go:20-24 -/
def minit {α} : MState α := ⟨fun _ => none, fun _ => none, fun _ => none⟩

/-- mediatypes/media-types.go:33-47; `none` is the panic. -/
def mregister {α} (K : TypeKeys α) (s : MState α) (x : α) : Option (MState α) :=
  if K.mainType x = [] ∧ K.subType x = [] then none
  else some
    ⟨put s.byMediaType (K.text x) x, put s.byID (K.id x) x,
      if K.fileExtension x ≠ [] then put s.byFileExtension (K.fileExtension x) x else s.byFileExtension⟩

/-- The registry after these registrations, none of which panicked. -/
def mrun {α} (K : TypeKeys α) (h : List α) : Option (MState α) :=
  h.foldl (fun s x => s.bind fun s => mregister K s x) (some minit)

/-- compress-types/compress-types.go:30-36 -/
structure CState (α : Type) where
  byID : BitVec 64 → Option α
  byMediaType : Bytes → Option α
  byFileExtension : Bytes → Option α
  byContentEncoding : Bytes → Option α
  contentEncodings : List Bytes

/-- compress-types/compress-types.go:10-15 -/
def cinit {α} : CState α := ⟨fun _ => none, fun _ => none, fun _ => none, fun _ => none, []⟩

/-- compress-types/compress-types.go:39-56; `none` is a panic. -/
def cregister {α} (K : TypeKeys α) (s : CState α) (x : α) : Option (CState α) :=
  if K.mediaType x = [] then none
  else if K.contentEncoding x = [] then none
  else some
    ⟨put s.byID (K.id x) x, put s.byMediaType (K.text x) x,
      put s.byFileExtension (K.fileExtension x) x, put s.byContentEncoding (K.contentEncoding x) x,
      s.contentEncodings ++ [K.contentEncoding x]⟩

/-- The registry after these registrations, none of which panicked. -/
def crun {α} (K : TypeKeys α) (h : List α) : Option (CState α) :=
  h.foldl (fun s x => s.bind fun s => cregister K s x) (some cinit)

/-- mediatype/media-type.go:52-63: main type and sub type; `none` is the panic. -/
def parse (mediatype : Bytes) : Option (Bytes × Bytes) :=
  (indexByte mediatype (ch '/')).map fun i => (mediatype.take i, mediatype.drop (i + 1))

end Types

/-! ## error values -/
namespace ErrorValue

/-- An error value: an application error with its media type and data type identifier, or a chained
error (error/chain-error.go:30-33), which takes both from the error it wraps. -/
inductive Error
  | base (mediaType : Bytes) (dataTypeID : BitVec 64) (summary : Bytes)
  | chain (error : Error) (past : Error)
deriving DecidableEq, Repr

/-- The promoted method of the embedded error. -/
def Error.mediaType : Error → Bytes
  | .base m _ _ => m
  | .chain e _ => e.mediaType
/-- The promoted method of the embedded error. -/
def Error.dataTypeID : Error → BitVec 64
  | .base _ i _ => i
  | .chain e _ => e.dataTypeID

/-- error/error.go:11-22; nil is `none`. -/
def isEqual : Option Error → Option Error → Bool
  | none, none => true
  | some a, some b => a.mediaType == b.mediaType && a.dataTypeID == b.dataTypeID
  | _, _ => false

/-- error/chain-error.go:19-27: the pointer it answers; as values of the interface type errors are modelled in Registry/NilChain. -/
def newChain : Option Error → Option Error → Option Error
  | some e, some c => some (.chain e c)
  | _, _ => none

/-- error/chain-error.go:10-16 and 35 -/
def pastChain : Option Error → Option Error
  | some (.chain _ c) => some c
  | _ => none

end ErrorValue

end Memar.Registry
