import Verif.Base

/-!
# Packages `compress/gzip` and `compress/flate`: compressors and decompressors

The two packages have nearly the same text; `Flavor` says which one is meant where they differ. The standard
library's compression is a parameter (`Lib`). A source (`protocol.Codec`) is a number; what its `Marshal` answers at the time
of a call is given by a `World`: bytes, or `none` for an error. A run-time panic is `none`.
-/

namespace Memar.Compress
open Memar

/-- Which package. -/
inductive Flavor where
  | gzip | flate
  deriving DecidableEq, Repr

/-- The standard library (`compress/gzip`, `compress/flate`). -/
structure Lib where
  /-- is a level accepted by `NewWriterLevel` / `NewWriter`; for another one they return a nil writer and an error -/
  level : Int → Bool
  /-- everything a writer of this level writes for the data, `Close` included -/
  comp : Int → Bytes → Bytes
  /-- is the header accepted by `Reader.Reset` (gzip only) -/
  header : Bytes → Bool
  /-- the bytes a reader yields, and whether it ends without an error -/
  dec : Bytes → Bytes × Bool

/-- What the sources hold at one time. -/
abbrev World := Nat → Option Bytes

/-! ## Compressor -/

/-- compress/gzip/compressor.go:14-18, compress/flate/compressor.go:14-18 `Compressor`; `data = none` is the nil slice -/
structure Comp where
  source : Option Nat := none
  level : Int := 0
  data : Option Bytes := none
  deriving DecidableEq, Repr

/-- compress/gzip/compressor.go:21-25, compress/flate/compressor.go:21-25 `Init` -/
def Comp.init (c : Comp) (s : Nat) (l : Int) : Comp := { c with source := some s, level := l }

/-- compress/gzip/compressor.go:27-43, compress/flate/compressor.go:27-43 `EncodeAll`; the second result tells an error. A nil source and
the nil writer of a level that is not accepted panic. The output of a writer is not empty, so the slice is not nil. -/
def Comp.encodeAll (L : Lib) (w : World) (c : Comp) : Option (Comp × Bool) :=
  match c.source with
  | none => none
  | some s =>
    match w s with
    | none => some (c, true)
    | some x => if L.level c.level then some ({ c with data := some (L.comp c.level x) }, false) else none

/-- The common first lines of compress/gzip/compressor.go:57-70, 82-87 and compress/flate/compressor.go:57-70, 82-87: compress
unless that is done; the error of `EncodeAll` is handed on by `flate` and dropped by `gzip`. -/
def Comp.ready (fl : Flavor) (L : Lib) (w : World) (c : Comp) : Option (Comp × Bool) :=
  if c.data = none then (c.encodeAll L w).map fun r => (r.1, if fl = .gzip then false else r.2) else some (c, false)

/-- compress/gzip/compressor.go:57-63, compress/flate/compressor.go:57-63 `Marshal` -/
def Comp.marshal (fl : Flavor) (L : Lib) (w : World) (c : Comp) : Option (Comp × Bytes × Bool) :=
  (c.ready fl L w).map fun r => (r.1, r.1.data.getD [], r.2)

/-- compress/gzip/compressor.go:64-70, compress/flate/compressor.go:64-70 `MarshalTo` -/
def Comp.marshalTo (fl : Flavor) (L : Lib) (w : World) (c : Comp) (d : Bytes) : Option (Comp × Bytes × Bool) :=
  (c.ready fl L w).map fun r => (r.1, d ++ r.1.data.getD [], r.2)

/-- compress/gzip/compressor.go:81-87, compress/flate/compressor.go:81-87 `Len` -/
def Comp.len (fl : Flavor) (L : Lib) (w : World) (c : Comp) : Option (Comp × Nat) :=
  (c.ready fl L w).map fun r => (r.1, (r.1.data.getD []).length)

/-- compress/gzip/compressor.go:97-109, compress/flate/compressor.go:96-109 `WriteTo` to a writer that accepts everything: what it
receives, the number returned, and whether an error is -/
def Comp.writeTo (L : Lib) (w : World) (c : Comp) : Option (Bytes × Nat × Bool) :=
  match c.source with
  | none => none
  | some s =>
    match w s with
    | none => some ([], 0, true)
    | some x => if L.level c.level then some (L.comp c.level x, x.length, false) else none

/-! ## Decompressor -/

/-- The state of the gzip reader inside a decompressor (standard library): never set, at the start of an input, or at its end, which is the
end of the data (`ok`) or an error; the reader keeps answering this. -/
inductive Rd where
  | unset
  | at (b : Bytes)
  | ended (ok : Bool)
  deriving DecidableEq, Repr

/-- compress/gzip/decompressor.go:14-21, compress/flate/decompressor.go:14-18 `Decompressor`. `comLen` only sizes a buffer. -/
structure Dec where
  source : Option Nat := none
  zr : Rd := .unset
  data : Option Bytes := none
  deriving DecidableEq, Repr

/-- `Reader.Reset` on an input. A header that is refused is an error of the reader from then on; the error of an empty input is `io.EOF`, which
is the end of the data for those who read. -/
def reset (L : Lib) (b : Bytes) : Rd := if L.header b then .at b else .ended b.isEmpty

/-- compress/gzip/decompressor.go:24-29, compress/flate/decompressor.go:21-25 `Init` -/
def Dec.init (d : Dec) (s : Nat) : Dec := { d with source := some s }

/-- compress/gzip/decompressor.go:31-57, compress/flate/decompressor.go:27-46 `decompressAll`; the second result tells an error. The error
of `ReadFrom` is dropped, and so is the one of `Reset`. -/
def Dec.decompressAll (fl : Flavor) (L : Lib) (w : World) (d : Dec) : Option (Dec × Bool) :=
  match d.source with
  | none => none
  | some s =>
    match w s with
    | none => some (d, true)
    | some b =>
      match fl with
      | .flate => some ({ d with data := some (L.dec b).1 }, false)
      | .gzip =>
        if L.header b then some ({ d with zr := .ended (L.dec b).2, data := some (L.dec b).1 }, false)
        else some ({ d with zr := .ended b.isEmpty }, false)

/-- The common first lines of compress/gzip/decompressor.go:69-82, 98-103 and compress/flate/decompressor.go:60-73, 84-89. -/
def Dec.ready (fl : Flavor) (L : Lib) (w : World) (d : Dec) : Option (Dec × Bool) :=
  if d.data = none then (d.decompressAll fl L w).map fun r => (r.1, if fl = .gzip then false else r.2) else some (d, false)

/-- compress/gzip/decompressor.go:69-75, compress/flate/decompressor.go:60-66 `Marshal` -/
def Dec.marshal (fl : Flavor) (L : Lib) (w : World) (d : Dec) : Option (Dec × Bytes × Bool) :=
  (d.ready fl L w).map fun r => (r.1, r.1.data.getD [], r.2)

/-- compress/gzip/decompressor.go:76-82, compress/flate/decompressor.go:67-73 `MarshalTo` -/
def Dec.marshalTo (fl : Flavor) (L : Lib) (w : World) (d : Dec) (p : Bytes) : Option (Dec × Bytes × Bool) :=
  (d.ready fl L w).map fun r => (r.1, p ++ r.1.data.getD [], r.2)

/-- compress/gzip/decompressor.go:98-103, compress/flate/decompressor.go:84-89 `Len` -/
def Dec.len (fl : Flavor) (L : Lib) (w : World) (d : Dec) : Option (Dec × Nat) :=
  (d.ready fl L w).map fun r => (r.1, (r.1.data.getD []).length)

/-- compress/gzip/decompressor.go:83-91, compress/flate/decompressor.go:74-77 `Unmarshal`: the number returned, and whether an error is -/
def Dec.unmarshal (fl : Flavor) (L : Lib) (d : Dec) (b : Bytes) : Dec × Nat × Bool :=
  match fl with
  | .flate => (d, 0, true)
  | .gzip => ({ d with zr := reset L b }, 0, false)

/-- compress/gzip/decompressor.go:92-97, compress/flate/decompressor.go:78-81 `UnmarshalFrom`: the remaining bytes -/
def Dec.unmarshalFrom (fl : Flavor) (L : Lib) (d : Dec) (b : Bytes) : Option (Dec × Bytes × Bool) :=
  match fl with
  | .flate => some (d, [], true)
  | .gzip =>
    let r := d.unmarshal fl L b
    (sliceFrom b r.2.1).map fun rest => (r.1, rest, r.2.2)

/-- compress/gzip/decompressor.go:114-117, compress/flate/decompressor.go:92-95 `ReadFrom` a reader that yields `b`: the number returned
and whether an error is -/
def Dec.readFrom (fl : Flavor) (L : Lib) (d : Dec) (b : Bytes) : Dec × Nat × Bool :=
  match fl with
  | .flate => (d, 0, true)
  | .gzip => ({ d with zr := reset L b }, 0, !L.header b)

/-- compress/gzip/decompressor.go:118-120, compress/flate/decompressor.go:96-105 `WriteTo` to a writer that accepts everything: what it
receives, the number returned, and whether an error is. Reading from a gzip reader that was never set panics. -/
def Dec.writeTo (fl : Flavor) (L : Lib) (w : World) (d : Dec) : Option (Dec × Bytes × Nat × Bool) :=
  match fl with
  | .flate =>
    match d.source with
    | none => none
    | some s =>
      match w s with
      | none => some (d, [], 0, true)
      | some b => some (d, (L.dec b).1, (L.dec b).1.length, !(L.dec b).2)
  | .gzip =>
    match d.zr with
    | .unset => none
    | .at b => some ({ d with zr := .ended (L.dec b).2 }, (L.dec b).1, (L.dec b).1.length, !(L.dec b).2)
    | .ended ok => some (d, [], 0, !ok)

end Memar.Compress
