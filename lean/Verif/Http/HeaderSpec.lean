import Verif.Http.Header

/-! # Specification of the header multi-map

What a user wrote since the last reset is a list of (name, value) additions; everything a read may
return is determined by that list. -/

namespace Memar.Http.Spec
open Memar

/-- The operations of a history. -/
inductive Op where
  | add (key value : Bytes)
  | reinit
  deriving DecidableEq

/-- The additions made since the last reset, oldest first. -/
def additions : List Op → List KV
  | [] => []
  | ops@(_ :: _) => (ops.foldl (fun acc o => match o with
      | .add k v => acc ++ [(k, v)]
      | .reinit => []) ([] : List KV))

/-- All values of a name, in order of addition. -/
def valuesOf (adds : List KV) (key : Bytes) : List Bytes :=
  adds.filterMap fun p => if p.1 = key then some p.2 else none

/-- What "the value of a name" is: the earliest one, or the empty string. -/
def firstValue (adds : List KV) (key : Bytes) : Bytes := (valuesOf adds key).headD []

end Memar.Http.Spec

namespace Memar.Http
open Memar

/-- Running one operation of a history on the code's header. -/
def Header.apply (h : Header) : Spec.Op → Header
  | .add k v => h.add k v
  | .reinit => h.reinit

/-- Running a history from a freshly initialised header. -/
def Header.run (ops : List Spec.Op) : Header := ops.foldl Header.apply Header.init

end Memar.Http
