import Verif.Registry.Model

/-!
# The registries used by several goroutines, C290

The calls of errors/errors.go, operation/services/services.go, mediatypes/media-types.go and compress-types/compress-types.go as the accesses they make
to the shared maps and slices, run by several goroutines in any order. None of them takes a lock.

The Go runtime (not part of the repository) marks a map while it is written: a read or a write that finds the mark ends the program
("concurrent map read and map write", "concurrent map writes"). A read is one step here, so a write that begins during a read is not seen: the runtime does
not report all of these either.
-/

namespace Memar.Registry.Parallel
open Memar

variable {σ ρ : Type}

/-- What a call does with the shared data: it returns, reads the map of the given number and goes on, writes it (or deletes in it), or loads or stores
another variable. -/
inductive Code (σ ρ : Type)
  | ret (r : ρ)
  | read (m : Nat) (k : σ → Code σ ρ)
  | write (m : Nat) (f : σ → σ) (k : Code σ ρ)
  | load (k : σ → Code σ ρ)
  | store (f : σ → σ) (k : Code σ ρ)

/-- The call run by itself: the data afterwards and the answer. -/
def Code.alone : Code σ ρ → σ → σ × ρ
  | .ret r, s => (s, r)
  | .read _ k, s => (k s).alone s
  | .write _ f k, s => k.alone (f s)
  | .load k, s => (k s).alone s
  | .store f k, s => k.alone (f s)

/-- The number of steps of the call run by itself. -/
def Code.steps : Code σ ρ → σ → Nat
  | .ret _, _ => 1
  | .read _ k, s => (k s).steps s + 1
  | .write _ f k, s => k.steps (f s) + 2
  | .load k, s => (k s).steps s + 1
  | .store f k, s => k.steps (f s) + 1

/-- A goroutine: the calls it has still to make, the first of them perhaps begun; whether it is inside a write; the answers so far. -/
structure Thread (σ ρ : Type) where
  todo : List (Code σ ρ)
  mid : Bool
  answers : List ρ

/-- The shared data, the marks of the runtime on the maps, whether the runtime ended the program, and the goroutines. -/
structure Sys (σ ρ : Type) where
  shared : σ
  writing : Nat → Bool
  fatal : Bool
  threads : Nat → Thread σ ρ

/-- The goroutine `i` becomes `t`. -/
def setThread (ts : Nat → Thread σ ρ) (i : Nat) (t : Thread σ ρ) : Nat → Thread σ ρ := fun j => if j = i then t else ts j

/-- The mark of map `m` becomes `b`. -/
def setMark (w : Nat → Bool) (m : Nat) (b : Bool) : Nat → Bool := fun j => if j = m then b else w j

/-- One step of goroutine `i`. -/
def Sys.go (s : Sys σ ρ) (i : Nat) : Sys σ ρ :=
  if s.fatal then s
  else match (s.threads i).todo with
    | [] => s
    | .ret r :: cs => { s with threads := setThread s.threads i ⟨cs, false, (s.threads i).answers ++ [r]⟩ }
    | .read m k :: cs =>
      if s.writing m then { s with fatal := true }
      else { s with threads := setThread s.threads i ⟨k s.shared :: cs, false, (s.threads i).answers⟩ }
    | .write m f k :: cs =>
      if (s.threads i).mid then
        if s.writing m then
          { s with shared := f s.shared, writing := setMark s.writing m false,
                   threads := setThread s.threads i ⟨k :: cs, false, (s.threads i).answers⟩ }
        else { s with fatal := true }
      else
        if s.writing m then { s with fatal := true }
        else { s with writing := setMark s.writing m true,
                      threads := setThread s.threads i ⟨.write m f k :: cs, true, (s.threads i).answers⟩ }
    | .load k :: cs => { s with threads := setThread s.threads i ⟨k s.shared :: cs, false, (s.threads i).answers⟩ }
    | .store f k :: cs => { s with shared := f s.shared, threads := setThread s.threads i ⟨k :: cs, false, (s.threads i).answers⟩ }

/-- A schedule: which goroutine makes each step. -/
def Sys.run (s : Sys σ ρ) (sched : List Nat) : Sys σ ρ := sched.foldl Sys.go s

/-- The start: goroutine `i` is to make the calls `progs i`. -/
def start (s : σ) (progs : Nat → List (Code σ ρ)) : Sys σ ρ := ⟨s, fun _ => false, false, fun i => ⟨progs i, false, []⟩⟩

/-- The goroutine `i` makes its next call, alone from its beginning to its end. -/
def Sys.turn (s : Sys σ ρ) (i : Nat) : Sys σ ρ :=
  match (s.threads i).todo with
  | [] => s
  | c :: _ => s.run (List.replicate (c.steps s.shared) i)

/-! ## The calls of the registries -/

/-- What a call of the error registry answers. -/
inductive EAnswer (α : Type)
  | done (e : Option Errors.Err)
  | found (x : Errors.Lookup α)

/-- A call of the error registry. -/
inductive ECall (α : Type)
  | register (x : α)
  | unRegister (x : α)
  | getByID (id : BitVec 64)
  | getByMediaType (mt : Bytes)

/-- errors/errors.go:24-41 `Register`, 43-47 `UnRegister`, 50-60 `GetByID` and 63-70 `GetByMediaType`; map 0 is by identifier, map 1 by media type. -/
def ECall.code {α : Type} (K : Keys α) (dev : Bool) : ECall α → Code (Errors.State α) (EAnswer α)
  | .register x =>
    let writes := Code.write 0 (fun s => { s with byID := put s.byID (K.id x) x })
      (.write 1 (fun s => { s with byMediaType := put s.byMediaType (K.text x) x }) (.ret (.done none)))
    if dev then
      if K.id x = 0#64 then .ret (.done (some .notProvideIdentifier))
      else .read 0 fun s => if (s.byID (K.id x)).isSome then .ret (.done (some .duplicateIdentifier)) else writes
    else writes
  | .unRegister x =>
    .write 0 (fun s => { s with byID := del s.byID (K.id x) })
      (.write 1 (fun s => { s with byMediaType := del s.byMediaType (K.text x) }) (.ret (.done none)))
  | .getByID id => if id = 0#64 then .ret (.found .nil) else .read 0 fun s => .ret (.found (Errors.getByID s id))
  | .getByMediaType mt => .read 1 fun s => .ret (.found (Errors.getByMediaType s mt))

/-- The same calls as one step, `Verif.Registry.Model`. -/
def ECall.atOnce {α : Type} (K : Keys α) (dev : Bool) (s : Errors.State α) : ECall α → Errors.State α × EAnswer α
  | .register x => ((Errors.register K dev s x).1, .done (Errors.register K dev s x).2)
  | .unRegister x => (Errors.unRegister K s x, .done none)
  | .getByID id => (s, .found (Errors.getByID s id))
  | .getByMediaType mt => (s, .found (Errors.getByMediaType s mt))

/-- What a call of the service registry answers. -/
inductive SAnswer (α : Type)
  | done (e : Option Services.Err)
  | found (r : Option α × Option Services.Err)
  | list (l : List (Option α))

/-- A call of the service registry. -/
inductive SCall (α : Type)
  | register (x : α)
  | delete (x : α)
  | services
  | getByID (id : BitVec 64)
  | getByMediaType (mt : Bytes)

/-- operation/services/services.go:41-50 `Register` with 87-107, 80-85 `Delete`, 55 `Services`, 60-66 `GetByID` and 71-77 `GetByMediaType`; map 0 is by
identifier, map 1 by media type. `append` loads the slice and stores it. -/
def SCall.code {α : Type} (K : Keys α) : SCall α → Code (Services.State α) (SAnswer α)
  | .register x =>
    let rest : Code (Services.State α) (SAnswer α) :=
      .load fun s => .store (fun s' => { s' with byRegisterTime := s.byRegisterTime ++ [some x] }) (.ret (.done none))
    let second : Code (Services.State α) (SAnswer α) :=
      .read 1 fun s => match s.byMediaType (K.text x) with
        | some _ => rest
        | none => .write 1 (fun s => { s with byMediaType := put s.byMediaType (K.text x) x }) rest
    if K.id x = 0#64 then .ret (.done (some .notProvideIdentifier))
    else .read 0 fun s => match s.byID (K.id x) with
      | some _ => second
      | none => .write 0 (fun s => { s with byID := put s.byID (K.id x) x }) second
  | .delete x =>
    .write 0 (fun s => { s with byID := del s.byID (K.id x) })
      (.write 1 (fun s => { s with byMediaType := del s.byMediaType (K.text x) }) (.ret (.done none)))
  | .services => .load fun s => .ret (.list (Services.services s))
  | .getByID id => .read 0 fun s => .ret (.found (Services.getByID s id))
  | .getByMediaType mt => .read 1 fun s => .ret (.found (Services.getByMediaType s mt))

/-- The same calls as one step, `Verif.Registry.Model`. -/
def SCall.atOnce {α : Type} (K : Keys α) (s : Services.State α) : SCall α → Services.State α × SAnswer α
  | .register x => ((Services.register K s x).1, .done (Services.register K s x).2)
  | .delete x => (Services.delete K s x, .done none)
  | .services => (s, .list (Services.services s))
  | .getByID id => (s, .found (Services.getByID s id))
  | .getByMediaType mt => (s, .found (Services.getByMediaType s mt))

/-- What a call of the registries of media types and compress types answers; `panicked` is a registration that panics before it touches the tables. -/
inductive TAnswer (α : Type)
  | done
  | panicked
  | found (x : Option α)
  | names (l : List Bytes)

/-- A call of the registry of compress types. -/
inductive CCall (α : Type)
  | register (x : α)
  | getByID (id : BitVec 64)
  | getByMediaType (mt : Bytes)
  | getByFileExtension (ex : Bytes)
  | getByContentEncoding (ce : Bytes)
  | contentEncodings

/-- compress-types/compress-types.go:39-56 `Register` and 58-88 the lookups; the maps 0 to 3 are by identifier, media type, file extension and content encoding.
`append` loads the slice and stores it. -/
def CCall.code {α : Type} (K : Types.TypeKeys α) : CCall α → Code (Types.CState α) (TAnswer α)
  | .register x =>
    if K.mediaType x = [] then .ret .panicked
    else if K.contentEncoding x = [] then .ret .panicked
    else
      .write 0 (fun s => { s with byID := put s.byID (K.id x) x })
        (.write 1 (fun s => { s with byMediaType := put s.byMediaType (K.text x) x })
          (.write 2 (fun s => { s with byFileExtension := put s.byFileExtension (K.fileExtension x) x })
            (.write 3 (fun s => { s with byContentEncoding := put s.byContentEncoding (K.contentEncoding x) x })
              (.load fun s => .store (fun s' => { s' with contentEncodings := s.contentEncodings ++ [K.contentEncoding x] }) (.ret .done)))))
  | .getByID id => .read 0 fun s => .ret (.found (s.byID id))
  | .getByMediaType mt => .read 1 fun s => .ret (.found (s.byMediaType mt))
  | .getByFileExtension ex => .read 2 fun s => .ret (.found (s.byFileExtension ex))
  | .getByContentEncoding ce => .read 3 fun s => .ret (.found (s.byContentEncoding ce))
  | .contentEncodings => .load fun s => .ret (.names s.contentEncodings)

/-- The same calls as one step, `Verif.Registry.Model`. -/
def CCall.atOnce {α : Type} (K : Types.TypeKeys α) (s : Types.CState α) : CCall α → Types.CState α × TAnswer α
  | .register x => match Types.cregister K s x with
    | some s' => (s', .done)
    | none => (s, .panicked)
  | .getByID id => (s, .found (s.byID id))
  | .getByMediaType mt => (s, .found (s.byMediaType mt))
  | .getByFileExtension ex => (s, .found (s.byFileExtension ex))
  | .getByContentEncoding ce => (s, .found (s.byContentEncoding ce))
  | .contentEncodings => (s, .names s.contentEncodings)

/-- A call of the registry of media types. -/
inductive MCall (α : Type)
  | register (x : α)
  | getByMediaType (mt : Bytes)
  | getByID (id : BitVec 64)
  | getByFileExtension (ex : Bytes)

/-- mediatypes/media-types.go:33-47 `Register` and 49-71 the lookups; the maps 0 to 2 are by media type, identifier and file extension. -/
def MCall.code {α : Type} (K : Types.TypeKeys α) : MCall α → Code (Types.MState α) (TAnswer α)
  | .register x =>
    if K.mainType x = [] ∧ K.subType x = [] then .ret .panicked
    else
      .write 0 (fun s => { s with byMediaType := put s.byMediaType (K.text x) x })
        (.write 1 (fun s => { s with byID := put s.byID (K.id x) x })
          (if K.fileExtension x ≠ [] then .write 2 (fun s => { s with byFileExtension := put s.byFileExtension (K.fileExtension x) x }) (.ret .done)
           else .ret .done))
  | .getByMediaType mt => .read 0 fun s => .ret (.found (s.byMediaType mt))
  | .getByID id => .read 1 fun s => .ret (.found (s.byID id))
  | .getByFileExtension ex => .read 2 fun s => .ret (.found (s.byFileExtension ex))

/-- The same calls as one step, `Verif.Registry.Model`. -/
def MCall.atOnce {α : Type} (K : Types.TypeKeys α) (s : Types.MState α) : MCall α → Types.MState α × TAnswer α
  | .register x => match Types.mregister K s x with
    | some s' => (s', .done)
    | none => (s, .panicked)
  | .getByMediaType mt => (s, .found (s.byMediaType mt))
  | .getByID id => (s, .found (s.byID id))
  | .getByFileExtension ex => (s, .found (s.byFileExtension ex))

/-! ## Specification -/

/-- Specification: whether a call only looks something up. -/
def CCall.lookup {α : Type} : CCall α → Prop
  | .register _ => False
  | _ => True

/-- Specification: whether a call only looks something up. -/
def MCall.lookup {α : Type} : MCall α → Prop
  | .register _ => False
  | _ => True

/-- Specification: whether a call only looks something up. -/
def ECall.lookup {α : Type} : ECall α → Prop
  | .register _ => False
  | .unRegister _ => False
  | .getByID _ => True
  | .getByMediaType _ => True

/-- Specification: whether a call only looks something up. -/
def SCall.lookup {α : Type} : SCall α → Prop
  | .register _ => False
  | .delete _ => False
  | .services => True
  | .getByID _ => True
  | .getByMediaType _ => True

/-- Specification: the calls in the order in which the goroutines take their turns, each with its goroutine. -/
def Spec.merge {β : Type} (progs : Nat → List β) : List Nat → List (Nat × β)
  | [] => []
  | i :: order =>
    match progs i with
    | [] => Spec.merge progs order
    | x :: rest => (i, x) :: Spec.merge (fun j => if j = i then rest else progs j) order

/-- Specification: calls made one after the other, each in one step: the data afterwards and the answers, each with its goroutine. -/
def Spec.oneByOne {β : Type} (f : σ → β → σ × ρ) : σ → List (Nat × β) → σ × List (Nat × ρ)
  | s, [] => (s, [])
  | s, (i, c) :: cs => ((Spec.oneByOne f (f s c).1 cs).1, (i, (f s c).2) :: (Spec.oneByOne f (f s c).1 cs).2)

/-- Specification: what goroutine `i` was answered. -/
def Spec.answersOf (l : List (Nat × ρ)) (i : Nat) : List ρ := (l.filter fun p => p.1 = i).map (·.2)

end Memar.Registry.Parallel
